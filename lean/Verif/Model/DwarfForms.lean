import Verif.Model.DwarfVars
/-
Forms of attributes in the debug information (tools/dwarfparse.py:74-106, 330, 353-365) and what they mean for the types of variables
(tools/dwarfvars.py:31-35, 166-198).
-/
namespace Bean

/-- The value of an attribute in the file: a number with its form, or a location expression. -/
inductive RawVal where
  | num (form : String) (v : Int)
  | expr
deriving DecidableEq, Repr

/-- The value of a member of an entry: a number, a text, or a description of a location. -/
inductive AttrVal where
  | num (i : Int)
  | text (s : Str)
  | loc
deriving DecidableEq, Repr

/-- dwarfparse.py:91-96, 104: forms whose value is taken as it is. -/
def plainForms : List String :=
  ["DW_FORM_flag", "DW_FORM_addr", "DW_FORM_data1", "DW_FORM_data2", "DW_FORM_data4", "DW_FORM_data8", "DW_FORM_sec_offset"]

/-- dwarfparse.py:101-103: references within the unit. -/
def refForms : List String := ["DW_FORM_ref", "DW_FORM_ref1", "DW_FORM_ref2", "DW_FORM_ref4", "DW_FORM_ref8"]

/-- dwarfparse.py:354-362: description of an attribute without own description; `cu` is the offset of the unit. The other forms of the table (dwarfparse.py:82-88, 93, 97-99)
hold no number, or an index. -/
def describeRaw (cu : Int) : RawVal → AttrVal
  | .expr => .loc
  | .num form v =>
    if form ∈ plainForms then .num v
    else if form ∈ refForms then .num (cu + v)
    else if form = "DW_FORM_flag_present" then .num 1
    else .text (intText v)

/-- dwarfvars.py:31-35 `to_int`; absent for an exception (`ValueError`, `TypeError`). -/
def toInt : AttrVal → Option Int
  | .num i => some i
  | .text s => pyInt s
  | .loc => none

/-- dwarfvars.py:169-174: a bound of a range; absent for an exception. -/
def boundOf (cu : Int) : Option RawVal → Option Int
  | none => some 0
  | some r => toInt (describeRaw cu r)

/-- dwarfparse.py:330: offset of a member stored as a constant. All other forms are looked up as locations (dwarfparse.py:219-226), where elftools raises `ValueError` for a constant;
then the attribute is absent (dwarfparse.py:363-365). -/
def describeOffset (form : String) (v : Int) : Option Str :=
  if "DW_FORM_data".toList.isPrefixOf form.toList ∨ form = "DW_FORM_implicit_const" then some (intText v) else none

/-- A table in which the member `id` has the offset `v`, in the form given. -/
def withOffset (dies : Dies) (id : Nat) (form : String) (v : Int) : Dies := fun i =>
  if i = id then (dies i).map (fun d => { d with location := describeOffset form v }) else dies i

/-- Is the size of an entry (`DW_AT_byte_size`, with the form given) a text? -/
def sizeIsText (forms : Nat → String) (dies : Dies) (id : Nat) : Bool :=
  match dies id with
  | some d =>
    match d.byte_size with
    | some v =>
      match describeRaw 0 (.num (forms id) v) with
      | .text _ => true
      | _ => false
    | none => false
  | none => false

/-- dwarfvars.py:181, 195, 198: `to_int(factor * size)` for a text: the text is repeated. -/
def textTotal (dies : Dies) (d : Die) : Option Int :=
  match d.byte_size, (if d.tag = "array_type".toList then arrayText dies d.children else .ok ([], [], 1)) with
  | some v, .ok (_, _, factor) => pyInt (List.replicate factor.toNat (intText v)).flatten
  | _, _ => none

/-- dwarfvars.py:191-198: store the result; a number is never equal to a text (dwarfvars.py:193). -/
def storeForm (text : Bool) (dies : Dies) (d : Die) (m : TypeMemo) (id : Nat) (resolve : Bool) (t : TypeInfo) : Except TypeError (TypeInfo × TypeMemo) :=
  if text then
    match m.total id with
    | some _ => .error .assertion
    | none =>
      match textTotal dies d with
      | some s => .ok ({ t with size := s }, m.store id resolve { t with size := s })
      | none => .error .valueError
  else storeType m id resolve t

/-- dwarfvars.py:76-198 `get_type`, with regard to the forms of the sizes. -/
def getTypeForm (o : TypeOpts) (dies : Dies) (forms : Nat → String) : Nat → TypeMemo → Nat → Bool → Except TypeError (TypeInfo × TypeMemo)
  | 0, _, _, _ => .error .recursion
  | n + 1, m, id, resolve =>
    match dies id with
    | none => .error .keyError
    | some d =>
      match m.entry id resolve, m.total id with
      | some (ident, hash), some size => .ok ({ ident := ident, size := size, hash := hash }, m)
      | some _, none => .error .keyError
      | none, _ =>
        match membersOf dies (getTypeForm o dies forms n) d (resolveIn d resolve) m with
        | .error e => .error e
        | .ok (members, m) =>
          match referredType dies (getTypeForm o dies forms n) d (resolveIn d resolve) m with
          | .error e => .error e
          | .ok (type, m) =>
            match finishType o dies d members type with
            | .error e => .error e
            | .ok t => storeForm (sizeIsText forms dies id) dies d m id resolve t

/-- Types of several entries in turn (dwarfvars.py:286-307). -/
def getTypesForm (o : TypeOpts) (dies : Dies) (forms : Nat → String) (n : Nat) : TypeMemo → List Nat → Except TypeError (List TypeInfo)
  | _, [] => .ok []
  | m, id :: ids =>
    match getTypeForm o dies forms n m id true with
    | .error e => .error e
    | .ok (t, m) =>
      match getTypesForm o dies forms n m ids with
      | .error e => .error e
      | .ok ts => .ok (t :: ts)

end Bean

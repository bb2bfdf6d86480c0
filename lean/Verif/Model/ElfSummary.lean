import Verif.Model.ElfTables
/-
Functions and types of a summary (tools/elfvars.py:60-70, 210-231, 310-349; tools/dwarfvars.py:310-363).
-/
namespace Bean

/-! ### Functions of the symbol table -/

/-- elfvars.py:215: the condition for exported functions. -/
def isFunction (s : TableSym) : Prop := s.shndx ≠ .undef ∧ s.type = .func ∧ s.size > 0 ∧ s.isGlobal = true ∧ s.value ≠ 0

instance (s : TableSym) : Decidable (isFunction s) := by unfold isFunction; infer_instance

/-- elfvars.py:216: `split('@')[0]`, the name without its version. -/
def plainName (s : Str) : Str := s.takeWhile (fun c => c != '@')

/-- Comparison of tuples. -/
def comparePair (a b : Str × Int) : Int := if a.1 = b.1 then a.2 - b.2 else strcmp a.1 b.1

/-- elfvars.py:210-217 `functions`: `sorted` of a set. -/
def functionNames (ss : List TableSym) : List (Str × Int) :=
  pySorted comparePair (((ss.filter (fun s => decide (isFunction s))).map (fun s => (plainName s.name, s.value))).foldl setAdd [])

/-! ### Functions of the debug information -/

/-- An entry that may be a function. Flags are absent or true or false; absence and false mean the same (dwarfvars.py:336-339). -/
structure FuncDie where
  tag : Str
  declaration : Bool := false
  external : Bool := false
  name : Option Str := none
  linkage_name : Option Str := none
  type : Option Nat := none
  children : List Nat := []
  low_pc : Option Int := none
deriving DecidableEq, Repr

/-- What is delivered for a function (dwarfvars.py:363). -/
structure FuncInfo where
  name : Str
  addr : Int
  ret : Str
  params : Str
  hash : Str
deriving DecidableEq, Repr

/-- dwarfvars.py:341-346: the name. -/
def funcName (d : FuncDie) : Option Str := d.linkage_name.or d.name

/-- dwarfvars.py:356-360: types of the parameters, in order (`iter_children`, dwarfvars.py:310-313). -/
def paramTypes (o : TypeOpts) (dies : Dies) (n : Nat) : TypeMemo → List Nat → Except TypeError (List TypeInfo × TypeMemo)
  | m, [] => .ok ([], m)
  | m, c :: cs =>
    match dies c with
    | none => .error .keyError
    | some child =>
      if child.tag = "formal_parameter".toList then
        match getType o dies n m c true with
        | .error e => .error e
        | .ok (t, m) =>
          match paramTypes o dies n m cs with
          | .error e => .error e
          | .ok (ts, m) => .ok (t :: ts, m)
      else paramTypes o dies n m cs

/-- dwarfvars.py:349-352: the type of the result. -/
def resultType (o : TypeOpts) (dies : Dies) (n : Nat) (m : TypeMemo) (d : FuncDie) : Except TypeError (Option TypeInfo × TypeMemo) :=
  match d.type with
  | none => .ok (none, m)
  | some t =>
    match dies t with
    | none => .ok (none, m)
    | some _ =>
      match getType o dies n m t true with
      | .error e => .error e
      | .ok (ti, m) => .ok (some ti, m)

/-- `', '.join` -/
def joinText : List Str → Str
  | [] => []
  | [s] => s
  | s :: t :: ts => s ++ ',' :: ' ' :: joinText (t :: ts)

/-- dwarfvars.py:347-363: what is delivered. -/
def funcInfo (o : TypeOpts) (d : FuncDie) (name : Str) (ret : Option TypeInfo) (params : List TypeInfo) : FuncInfo where
  name := name
  addr := match d.low_pc with
    | some a => a
    | none => 0
  ret := match ret with
    | some t => t.ident
    | none => "void".toList
  params := joinText (params.map (·.ident))
  hash := o.H ((match ret with
    | some t => t.hash
    | none => []) ++ name ++ params.flatMap (·.hash))

/-- dwarfvars.py:336-346: is this an entry for which something is delivered, and under which name? -/
def funcEligible (onlyExternal : Bool) (d : FuncDie) : Option Str :=
  if d.declaration then none
  else if onlyExternal && !d.external then none
  else if d.tag = "subprogram".toList then funcName d
  else none

/-- dwarfvars.py:333-363 `iter_func`. -/
def listFuncs (o : TypeOpts) (dies : Dies) (n : Nat) (onlyExternal : Bool) :
    TypeMemo → List FuncDie → Except TypeError (List FuncInfo × TypeMemo)
  | m, [] => .ok ([], m)
  | m, d :: ds =>
    match funcEligible onlyExternal d with
    | none => listFuncs o dies n onlyExternal m ds
    | some name =>
      match resultType o dies n m d with
      | .error e => .error e
      | .ok (ret, m) =>
        match paramTypes o dies n m d.children with
        | .error e => .error e
        | .ok (ps, m) =>
          match listFuncs o dies n onlyExternal m ds with
          | .error e => .error e
          | .ok (fs, m) => .ok (funcInfo o d name ret ps :: fs, m)

/-- `d[k] = v` for a dictionary, in the order of insertion. -/
def dictSet (d : List (Str × Str)) (k v : Str) : List (Str × Str) :=
  if d.any (fun e => e.1 == k) then d.map (fun e => if e.1 = k then (k, v) else e) else d ++ [(k, v)]

/-- elfvars.py:226, 229 -/
def protoText (ret name params : Str) : Str := ret ++ ' ' :: name ++ '(' :: params ++ [')']

/-- elfvars.py:223-229: one iteration. -/
def declare (filter : List (Str × Int)) (decls : List (Str × Str)) (f : FuncInfo) : List (Str × Str) :=
  if filter = [] then dictSet decls f.name (protoText f.ret f.name f.params)
  else
    match filter.find? (fun e => decide (f.name = e.1 ∨ f.addr = e.2)) with
    | some e => dictSet decls f.name (protoText f.ret e.1 f.params)
    | none => decls

/-- elfvars.py:220-231 `functions_debug`. -/
def functionsDebug (filter : List (Str × Int)) (fs : List FuncInfo) : List Str :=
  (pySorted (fun a b => strcmp a.1 b.1) (fs.foldl (declare filter) [])).map (·.2)

/-- elfvars.py:333-338: the functions of a summary. -/
def summaryFunctions (ss : List TableSym) : Option (List FuncInfo) → List Str
  | some fs => functionsDebug (functionNames ss) fs
  | none => pySorted strcmp ((functionNames ss).map (·.1))

/-- elfvars.py:340-350: the text that is hashed, if there are functions. -/
def functionsText (l : List Str) : Option Str := if l = [] then none else some l.flatten

/-! ### Types -/

/-- An entry of the debug information: its offset and place. -/
structure TypeEntry where
  id : Nat
  decl : Option Str := none
deriving DecidableEq, Repr

/-- dwarfvars.py:319: directories of system headers. -/
def systemDirs : List Str := ["/usr/lib/gcc/".toList, "/usr/local/include/".toList, "/usr/include/".toList]

/-- dwarfvars.py:319: is it declared in a system header? -/
def inSystem : Option Str → Bool
  | none => false
  | some s => systemDirs.any (fun p => p.isPrefixOf s)

/-- dwarfvars.py:317-319: is the type of this entry listed? -/
def typeListed (dies : Dies) (system : Bool) (e : TypeEntry) : Bool :=
  match dies e.id with
  | none => false
  | some d => isComposite d.tag && (system || !inSystem e.decl)

/-- dwarfvars.py:316-320 `iter_types`. -/
def listTypes (o : TypeOpts) (dies : Dies) (n : Nat) (system : Bool) :
    TypeMemo → List TypeEntry → Except TypeError (List TypeInfo × TypeMemo)
  | m, [] => .ok ([], m)
  | m, e :: es =>
    if typeListed dies system e then
      match getType o dies n m e.id true with
      | .error e => .error e
      | .ok (t, m) =>
        match listTypes o dies n system m es with
        | .error e => .error e
        | .ok (ts, m) => .ok (t :: ts, m)
    else listTypes o dies n system m es

/-- Comparison for sorting by identifier (elfvars.py:62, 321). -/
def compareTypes (a b : TypeInfo) : Int := strcmp a.ident b.ident

/-- elfvars.py:62-70: the loop; `l` is the entry delivered last. Messages are left out. -/
def uniqTypesFrom (l : Option TypeInfo) : List TypeInfo → List TypeInfo
  | [] => []
  | s :: rest =>
    if l.any (fun l => l.ident == s.ident) then uniqTypesFrom l rest
    else s :: uniqTypesFrom (some s) rest

/-- elfvars.py:60-70 `sortuniq_datatypes`. -/
def sortuniqTypes (l : List TypeInfo) : List TypeInfo := uniqTypesFrom none (pySorted compareTypes l)

/-- elfvars.py:311-330: the types that enter the hash. -/
def summaryTypes (l : List TypeInfo) : List TypeInfo :=
  sortuniqTypes (pySorted compareTypes (l.filter (fun t => decide (t.size > 0))))

/-- elfvars.py:319-331: the text that is hashed, if there are types. -/
def typesText (l : List TypeInfo) : Option Str :=
  if l.filter (fun t => decide (t.size > 0)) = [] then none else some ((summaryTypes l).flatMap (·.hash))

end Bean

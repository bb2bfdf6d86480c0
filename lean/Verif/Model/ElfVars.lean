import Verif.Model.DebugSym
/-
Summary of the variables of a file (tools/elfvars.py).

Texts are lists of characters, integers of Python are unbounded. The members `type`, `source` and `external` of a variable
only show up in the verbose output and are left out.
-/
namespace Bean

/-- A variable: an entry of the symbol table (elfvars.py:177-184) or of the debug information (elfvars.py:187-207), the
latter with the hash of its type. -/
structure Var where
  name : Str
  value : Int
  size : Int
  align : Int
  category : Str
  hash : Option Str := none
deriving DecidableEq, Repr

/-- elfvars.py:31-37; Python compares texts by code points. -/
def strcmp (a b : Str) : Int := if a < b then -1 else if a > b then 1 else 0

/-- elfvars.py:42-48 -/
def compareVars (a b : Var) : Int :=
  if a.category ≠ b.category then strcmp a.category b.category
  else if a.value = b.value then strcmp a.name b.name
  else a.value - b.value

/-- Insertion of an element that comes before the elements of the list in the original order. -/
def pyInsert {α : Type} (cmp : α → α → Int) (x : α) : List α → List α
  | [] => [x]
  | y :: ys => if cmp y x < 0 then y :: pyInsert cmp x ys else x :: y :: ys

/-- `sorted` with a key made by `cmp_to_key`: a stable sort. For a comparison that is a total preorder the result does not
depend on the algorithm. -/
def pySorted {α : Type} (cmp : α → α → Int) : List α → List α
  | [] => []
  | x :: xs => pyInsert cmp x (pySorted cmp xs)

/-- elfvars.py:52-58: the loop; `l` is the entry delivered last. Messages are left out. -/
def uniqFrom (l : Option Var) : List Var → List Var
  | [] => []
  | s :: rest =>
    if l.any (fun l => l.value == s.value && l.name == s.name) then uniqFrom l rest
    else s :: uniqFrom (some s) rest

/-- elfvars.py:50-58 `sortuniq_symbols`. -/
def sortuniq (l : List Var) : List Var := uniqFrom none (pySorted compareVars l)

/-- Exceptions of `summary`. -/
inductive SummaryError where
  | sizeMismatch | categoryMismatch | assertion
deriving DecidableEq, Repr

/-- elfvars.py:241-273: the loop merging the entries of symbol table `s` and debug information `d`. -/
def mergeVars : List Var → List Var → Except SummaryError (List Var)
  | [], [] => .ok []
  | [], d :: ds => (mergeVars [] ds).map (d :: ·)
  | s :: ss, [] => (mergeVars ss []).map (s :: ·)
  | s :: ss, d :: ds =>
    if d.value = s.value ∧ d.name.isPrefixOf s.name then
      if d.size ≠ s.size then .error .sizeMismatch
      else if d.category ≠ s.category then .error .categoryMismatch
      else (mergeVars ss ds).map ({ s with hash := d.hash } :: ·)
    else if compareVars d s = 0 then .error .assertion
    else if compareVars d s < 0 then (mergeVars (s :: ss) ds).map (d :: ·)
    else (mergeVars ss (d :: ds)).map (s :: ·)
termination_by s d => s.length + d.length

/-- elfvars.py:235-275: the variables; debug information is absent if there is none. -/
def variables (symbols : List Var) : Option (List Var) → Except SummaryError (List Var)
  | none => .ok (sortuniq symbols)
  | some debug => mergeVars (sortuniq symbols) (sortuniq debug)

/-- `str` of an integer. -/
def intText (i : Int) : Str := (if i < 0 then ['-'] else []) ++ Nat.toDigits 10 i.natAbs

/-- elfvars.py:302-306: what a variable contributes to the hash of its category. -/
def entryText (names : Bool) (v : Var) : Str :=
  (if names then v.name else []) ++ (match v.hash with
    | some h => '#' :: h
    | none => []) ++ '@' :: intText v.value ++ '/' :: intText v.align ++ ':' :: intText v.size

/-- elfvars.py:295-308: the text whose hash is delivered for a category. The hash is absent without variables. -/
def categoryText (names : Bool) (vars : List Var) (category : Str) : Option Str :=
  let vs := vars.filter (fun v => v.category == category)
  if vs.isEmpty then none else some (vs.flatMap (entryText names))

/-! ### Cache -/

/-- Options of the program that matter for a summary (elfvars.py:449-459). -/
structure VarArgs where
  dbgsym : Bool := false
  dbgsym_extern : Bool := false
  verbose : Bool := false
  aliases : Bool := false
  names : Bool := false
  datatypes : Bool := false
  functions : Bool := false
  writable : Bool := false
  systypes : Bool := false
  base : Str := []
deriving DecidableEq, Repr

/-- `str` of a boolean. -/
def boolText (b : Bool) : Str := if b then "True".toList else "False".toList

/-- `str` of a build identifier or `None`. -/
def idText : Option Str → Str
  | some s => s
  | none => "None".toList

/-- elfvars.py:354-355 `get_cache_key` -/
def cacheKey (buildid : Option Str) (args : VarArgs) : Str :=
  idText buildid ++ ',' :: boolText args.dbgsym ++ ',' :: boolText args.dbgsym_extern ++ ',' :: boolText args.verbose ++
    ',' :: boolText args.aliases ++ ',' :: boolText args.names ++ ',' :: boolText args.datatypes ++
    ',' :: boolText args.functions ++ ',' :: boolText args.writable

/-- A request for a file: what the file system delivers at that moment. `buildid` is absent if the file cannot be opened as an
ELF file, `summary` is absent if an exception occurs while it is computed. -/
structure VarRequest (ρ : Type) where
  args : VarArgs
  buildid : Option (Option Str)
  summary : Option ρ

/-- The cache, a persistent dictionary (elfvars.py:471); the newest entry comes first. -/
abbrev VarCache (ρ : Type) := List (Str × ρ)

/-- elfvars.py:357-374 `get_data` with an active cache: the answer and the new cache. -/
def getData {ρ : Type} (cache : VarCache ρ) (r : VarRequest ρ) : Option ρ × VarCache ρ :=
  match r.buildid with
  | none => (none, cache)
  | some id =>
    match cache.lookup (cacheKey id r.args) with
    | some v => (some v, cache)
    | none =>
      match r.summary with
      | some v => (some v, (cacheKey id r.args, v) :: cache)
      | none => (none, cache)

/-- Answers for a sequence of requests. -/
def getAll {ρ : Type} : VarCache ρ → List (VarRequest ρ) → List (Option ρ)
  | _, [] => []
  | cache, r :: rest => (getData cache r).1 :: getAll (getData cache r).2 rest

/-- elfvars.py:409-412: a request for a build identifier is only looked up. -/
def getById {ρ : Type} (cache : VarCache ρ) (args : VarArgs) (id : Str) : Option ρ := cache.lookup (cacheKey (some id) args)

end Bean

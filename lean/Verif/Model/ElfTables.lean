import Verif.Model.ElfVars
import Verif.Model.DwarfVars
/-
Variables from the tables of a file (tools/elfvars.py:127-207, 235-308).

Integers of Python are unbounded. Tables are given as delivered by elftools.
-/
namespace Bean

/-- Kinds of program headers that matter (elfvars.py:130). -/
inductive HeaderKind where
  | load | tls | relro | other
deriving DecidableEq, Repr

/-- A program header. `sections` are the indices for which `section_in_segment` of elftools holds (elfvars.py:154-156). -/
structure VarHeader where
  kind : HeaderKind
  r : Bool := false
  w : Bool := false
  x : Bool := false
  vaddr : Int
  memsz : Int
  sections : List Nat := []
deriving DecidableEq, Repr

/-- elfvars.py:142-146 -/
structure SegData where
  category : Str
  value : Int
  size : Int
deriving DecidableEq, Repr

/-- elfvars.py:131-139 -/
def headerCategory (p : VarHeader) : Str :=
  if p.kind = .tls then "TLS".toList
  else (if p.r then ['R'] else []) ++ (if p.w then ['W'] else []) ++ (if p.x then ['X'] else [])

/-- elfvars.py:142-146 -/
def segData (p : VarHeader) : SegData where
  category := headerCategory p
  value := p.vaddr
  size := p.memsz

/-- The members set by `load_segments`. The dictionary `sec2seg` stores an index of `segments`; as entries of this list are only appended it
is replaced by the entry. -/
structure Loaded where
  segments : List SegData := []
  categories : List Str := []
  sec2seg : Nat → Option SegData := fun _ => none
  relro : Option SegData := none

/-- elfvars.py:130-156: one iteration. -/
def loadHeader (l : Loaded) (p : VarHeader) : Loaded :=
  if p.kind = .other then l
  else if p.kind = .relro then
    { l with categories := setAdd l.categories (headerCategory p), relro := some (segData p) }
  else
    { l with
      categories := setAdd l.categories (headerCategory p)
      segments := l.segments ++ [segData p]
      sec2seg := fun s => if s ∈ p.sections then some (segData p) else l.sec2seg s }

/-- elfvars.py:127-156 `load_segments` -/
def loadHeaders (ps : List VarHeader) : Loaded := ps.foldl loadHeader {}

/-- The section of a symbol: undefined, an index, or another special value (`SHN_ABS`, `SHN_COMMON`). -/
inductive SymSection where
  | undef
  | index (s : Nat)
  | special
deriving DecidableEq, Repr

/-- Types of symbols (elfvars.py:163, 215). -/
inductive TableType where
  | object | common | tls | func | other
deriving DecidableEq, Repr

/-- An entry of a symbol table. -/
structure TableSym where
  name : Str
  shndx : SymSection
  type : TableType
  isGlobal : Bool := true
  value : Int
  size : Int
deriving DecidableEq, Repr

/-- Exceptions: `KeyError` of `sec2seg`, `RuntimeError` of `symbols_debug` (elfvars.py:200) and those of `summary`. -/
inductive TableError where
  | keyError
  | noSegment (a : Int)
  | summary (e : SummaryError)
deriving DecidableEq, Repr

/-- elfvars.py:39-40 `page_start`; `%` of Python is not negative for a positive divisor. -/
def pageStart (a : Int) : Int := a - a % 4096

/-- elfvars.py:165-166, 193-194: the variable belongs to the protected part. -/
def inRelro (l : Loaded) (seg : SegData) (a n : Int) : Option SegData :=
  match l.relro with
  | some r => if 'W' ∈ seg.category ∧ a ≥ r.value ∧ a + n < r.value + r.size then some r else none
  | none => none

/-- elfvars.py:165-166, 193-194: the segment that is used. -/
def chosen (l : Loaded) (seg : SegData) (a n : Int) : SegData :=
  match inRelro l seg a n with
  | some r => r
  | none => seg

/-- elfvars.py:163: the condition for symbols. -/
def isVariable (s : TableSym) : Prop :=
  s.shndx ≠ .undef ∧ (s.type = .object ∨ s.type = .common ∨ s.type = .tls) ∧ s.size > 0

instance (s : TableSym) : Decidable (isVariable s) := by unfold isVariable; infer_instance

/-- elfvars.py:164: `self.segments[self.sec2seg[…]]` -/
def symbolSegment (l : Loaded) : SymSection → Except TableError SegData
  | .index s =>
    match l.sec2seg s with
    | some seg => .ok seg
    | none => .error .keyError
  | .undef => .error .keyError
  | .special => .error .keyError

/-- elfvars.py:164-184 -/
def symbolVar (l : Loaded) (s : TableSym) : Except TableError Var :=
  match symbolSegment l s.shndx with
  | .error e => .error e
  | .ok seg =>
    if s.type = .tls then
      .ok { name := s.name, value := s.value, size := s.size, align := s.value, category := "TLS".toList }
    else
      .ok { name := s.name, value := s.value - pageStart (chosen l seg s.value s.size).value, size := s.size, align := s.value % 4096,
            category := (chosen l seg s.value s.size).category }

/-- elfvars.py:158-185 `symbols` -/
def symbolVars (l : Loaded) : List TableSym → Except TableError (List Var)
  | [] => .ok []
  | s :: ss =>
    if isVariable s then
      match symbolVar l s with
      | .error e => .error e
      | .ok v => (symbolVars l ss).map (v :: ·)
    else symbolVars l ss

/-- elfvars.py:191-200: a variable with a fixed address. -/
def debugVar (l : Loaded) (d : DwVar) : Except TableError Var :=
  match l.segments.find? (fun seg => decide (d.value ≥ seg.value ∧ d.value + d.size ≤ seg.value + seg.size)) with
  | some seg =>
    .ok { name := d.name, value := d.value - pageStart (chosen l seg d.value d.size).value, size := d.size, align := d.value % 4096,
          category := (chosen l seg d.value d.size).category, hash := some d.hash }
  | none => .error (.noSegment d.value)

/-- elfvars.py:202-205: a thread-local variable. -/
def tlsVar (d : DwVar) : Var where
  name := d.name
  value := d.value
  size := d.size
  align := d.value % 4096
  category := "TLS".toList
  hash := some d.hash

/-- elfvars.py:189-200: the first loop. -/
def fixedVars (l : Loaded) : List DwVar → Except TableError (List Var)
  | [] => .ok []
  | d :: ds =>
    match debugVar l d with
    | .error e => .error e
    | .ok v => (fixedVars l ds).map (v :: ·)

/-- elfvars.py:187-207 `symbols_debug`, given both lists of `get_vars`. -/
def debugVars (l : Loaded) (fixed threadLocal : List DwVar) : Except TableError (List Var) :=
  (fixedVars l fixed).map (· ++ threadLocal.map tlsVar)

/-- Variables with fixed and with thread-local places. -/
abbrev DebugLists := List DwVar × List DwVar

/-- elfvars.py:235-275: the variables of a file. -/
def fileVars (ps : List VarHeader) (ss : List TableSym) : Option DebugLists → Except TableError (List Var)
  | none =>
    match symbolVars (loadHeaders ps) ss with
    | .error e => .error e
    | .ok s => (variables s none).mapError .summary
  | some (fixed, threadLocal) =>
    match symbolVars (loadHeaders ps) ss with
    | .error e => .error e
    | .ok s =>
      match debugVars (loadHeaders ps) fixed threadLocal with
      | .error e => .error e
      | .ok d => (variables s (some d)).mapError .summary

/-- elfvars.py:288-308: texts hashed for the categories. -/
def fileTexts (names writableOnly : Bool) (ps : List VarHeader) (ss : List TableSym) (debug : Option DebugLists) :
    Except TableError (List (Str × Option Str)) :=
  (fileVars ps ss debug).map (fun vs =>
    ((pySorted strcmp (loadHeaders ps).categories).filter (fun c => !(writableOnly && !c.contains 'W' && c != "TLS".toList))).map
      (fun c => (c, categoryText names vs c)))

end Bean

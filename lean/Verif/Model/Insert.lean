import Verif.Model.Elf
/-
Insertion of symbols (src/analyze.hpp:117-182).
-/
namespace Bean

/-- Arguments of `insert_symbol` with the default values of analyze.hpp:118. -/
structure InsertArgs where
  address : Addr
  size : Addr := 0
  name : Option String := none
  section_address : Addr := 0
  section_name : Option String := none
  writeable : Bool := false
  executable : Bool := false
  type : ElfSymType := .hiproc
  bind : ElfSymBind := .local
deriving DecidableEq, Repr

/-- analyze.hpp:122-134 -/
def beanType : ElfSymType → SymType
  | .notype => .none
  | .object => .object
  | .func => .func
  | .section => .section
  | .file => .file
  | .common => .common
  | .tls => .tls
  | .gnuIfunc => .indirectFunc
  | .hiproc => .unknown
  | .other => .unknown

/-- analyze.hpp:136-142 -/
def beanBind : ElfSymBind → SymBind
  | .weak => .weak
  | .global => .global
  | .local => .local
  | .other => .local

/-- bean.hpp:255-256: constructor of a symbol as used in analyze.hpp:146. -/
def newSymbol (a : InsertArgs) : Symbol :=
  { address := a.address, size := a.size, name := a.name, type := beanType a.type, bind := beanBind a.bind,
    sec := { address := a.section_address, name := a.section_name, writeable := a.writeable,
             executable := a.executable, flags := 0 } }

/-- analyze.hpp:168 `name != nullptr && (pos->name == nullptr || pos->name[0] == '\0')` -/
def takesName (pos : Symbol) (name : Option String) : Bool :=
  name.isSome && (pos.name == none || pos.name == some "")

/-- analyze.hpp:148-179: merge of the arguments into a symbol at the same address. `find` only delivers symbols with
`pos->address == address`, the branch of line 169-175 is never taken. -/
def mergeSymbol (a : InsertArgs) (pos : Symbol) : Symbol :=
  { pos with
    size := (if pos.address + pos.size ≥ a.address + a.size then pos.address + pos.size else a.address + a.size)
      - pos.address
    name := if takesName pos a.name then a.name else pos.name
    type :=
      if beanType a.type ≠ .unknown ∧ (pos.type = .unknown ∨ pos.type = .section ∨ pos.type = .file ∨ pos.type = .common)
      then beanType a.type else pos.type
    bind := if pos.bind.code < (beanBind a.bind).code then beanBind a.bind else pos.bind
    sec :=
      { pos.sec with
        name := if pos.sec.name.isNone && a.section_name.isSome then a.section_name else pos.sec.name
        address := if pos.sec.address = 0 then a.section_address else pos.sec.address
        writeable := if pos.size = 0 then a.writeable else pos.sec.writeable
        executable := if pos.size = 0 then a.executable else pos.sec.executable } }

/-- analyze.hpp:153-159: the assertions of the merge. -/
def mergeCheck (b : Build) (a : InsertArgs) (pos : Symbol) : M Unit :=
  if pos.size = 0 then .ok ()
  else if a.size ≠ 0 then do
    massert b (pos.sec.writeable == a.writeable)
    massert b (pos.sec.executable == a.executable)
  else .ok ()

/-- analyze.hpp:117-182 `insert_symbol`. -/
def insertSymbol (b : Build) (symbols : SymTree) (a : InsertArgs) : M SymTree := do
  massert b (!(a.executable && a.writeable))
  massert b (!(a.executable && TLS.is_tls a.address))
  match Tree.find symbols a.address with
  | none => return (Tree.insert symbols (newSymbol a)).1
  | some pos =>
    if pos.type = .none ∧ (beanType a.type = .object ∨ beanType a.type = .func) then
      return (Tree.insert symbols (newSymbol a)).1
    else if beanType a.type ≠ .none ∨ pos.type = .unknown then do
      mergeCheck b a pos
      return Tree.modify symbols a.address (mergeSymbol a)
    else return symbols

end Bean

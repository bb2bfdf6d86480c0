import Verif.Model.Basic
/-
Symbols, sections, relocations (include/bean/bean.hpp).
-/
namespace Bean

/-! include/bean/bean.hpp:24-42, `Bean::TLS`. -/
namespace TLS

/-- bean.hpp:26 `ADDRESS_FLAG = 0xf0000000000000` (bits 52 to 55). -/
def ADDRESS_FLAG : Addr := 0xf0000000000000#64

/-- bean.hpp:29-31 -/
def trans_addr (virt_addr : Addr) (tls : Bool) : Addr := virt_addr ||| (if tls then ADDRESS_FLAG else 0#64)

/-- bean.hpp:34-36 -/
def virt_addr (trans_addr : Addr) : Addr := trans_addr &&& ~~~ADDRESS_FLAG

/-- bean.hpp:39-41 -/
def is_tls (trans_addr : Addr) : Bool := (trans_addr &&& ADDRESS_FLAG) != 0#64

end TLS

/-- bean.hpp:142-152 `Symbol::Type`. -/
inductive SymType where
  | none | object | func | section | file | common | tls | indirectFunc | unknown
deriving DecidableEq, Repr

/-- bean.hpp:142-152: numeric value of the enumerator (hashed as one byte). -/
def SymType.code : SymType → BitVec 8
  | .none => 0 | .object => 1 | .func => 2 | .section => 3 | .file => 4 | .common => 5 | .tls => 6
  | .indirectFunc => 7 | .unknown => 8

/-- bean.hpp:155-159 `Symbol::Bind` (WEAK = -1, LOCAL = 0, GLOBAL = 1). -/
inductive SymBind where
  | weak | local | global
deriving DecidableEq, Repr

/-- bean.hpp:155-159: the numeric value, used by the comparison in analyze.hpp:164. -/
def SymBind.code : SymBind → Int
  | .weak => -1 | .local => 0 | .global => 1

/-- bean.hpp:155-159: `int8_t` representation (hashed as one byte). -/
def SymBind.byte : SymBind → BitVec 8
  | .weak => 255 | .local => 0 | .global => 1

/-- bean.hpp:161-166 `Symbol::Flags`. -/
def SYMBOL_ENTRY : BitVec 16 := 1
def SYMBOL_TRAMPOLINE : BitVec 16 := 2
def SYMBOL_USING_CET : BitVec 16 := 4

/-- bean.hpp:185-199 `Section::Flags`. -/
def SECTION_RELRO : BitVec 16 := 1
def SECTION_NOTE : BitVec 16 := 2
def SECTION_DYNAMIC : BitVec 16 := 4
def SECTION_VERSION : BitVec 16 := 8
def SECTION_INIT : BitVec 16 := 16
def SECTION_FINI : BitVec 16 := 32
def SECTION_RELOC : BitVec 16 := 64
def SECTION_SYMTAB : BitVec 16 := 128
def SECTION_STRTAB : BitVec 16 := 256
def SECTION_HASH : BitVec 16 := 512
def SECTION_EH_FRAME : BitVec 16 := 1024
def SECTION_NOBITS : BitVec 16 := 2048

/-- bean.hpp:171-212 `Symbol::Section`. -/
structure Section where
  address : Addr := 0
  name : Option String := none
  writeable : Bool := false
  executable : Bool := false
  flags : BitVec 16 := 0
deriving DecidableEq, Repr

/-- bean.hpp:204-206 -/
def Section.has (s : Section) (flag : BitVec 16) : Bool := (s.flags &&& flag) != 0

/-- bean.hpp:209-211 `Section::operator==`: the address is not compared, names are compared by content. -/
def Section.same (a b : Section) : Bool :=
  a.writeable == b.writeable && a.executable == b.executable && a.flags == b.flags && a.name == b.name

/-- bean.hpp:215-235 `Symbol::Identifier`. -/
structure Identifier where
  internal : BitVec 64 := 0
  external : BitVec 64 := 0
deriving DecidableEq, Repr

/-- bean.hpp:100-107 access flags of a relocation. -/
def ACCESSFLAG_READ : BitVec 8 := 1
def ACCESSFLAG_WRITE : BitVec 8 := 2
def ACCESSFLAG_BRANCH : BitVec 8 := 4
def ACCESSFLAG_CONDITIONAL : BitVec 8 := 8
def ACCESSFLAG_LOCAL : BitVec 8 := 16

/-- bean.hpp:71-112 `SymbolRelocation` (`machine` is the same for all relocations of a file and left out). -/
structure Rel where
  offset : Addr
  type : Addr
  name : Option String := none
  addend : BitVec 64 := 0
  target : Addr := 0
  undefined : Bool := false
  reconstructed : Bool := false
  instruction_offset : BitVec 4 := 0
  instruction_access : BitVec 8 := 0
deriving DecidableEq, Repr

/-- bean.hpp:318-320: relocations are ordered by offset. -/
instance : Keyed Rel := ⟨Rel.offset⟩

/-- bean.hpp:131-274 `Symbol` (without the debug text). -/
structure Symbol where
  address : Addr
  size : Addr := 0
  name : Option String := none
  type : SymType := .unknown
  bind : SymBind := .local
  flags : BitVec 16 := 0
  sec : Section := {}
  id : Identifier := {}
  deps : List Addr := []
  refs : List Addr := []
  rels : List Rel := []
  offset_ids : List (Addr × BitVec 64) := []
deriving DecidableEq, Repr

/-- bean.hpp:281-283: symbols are ordered by address. -/
instance : Keyed Symbol := ⟨Symbol.address⟩

/-- bean.hpp:261-263 -/
def Symbol.has (s : Symbol) (flag : BitVec 16) : Bool := (s.flags &&& flag) != 0

/-- bean.hpp:271-273 `Symbol::operator==`. -/
def Symbol.same (a b : Symbol) : Bool :=
  a.id == b.id && a.sec.same b.sec && a.refs.length == b.refs.length && a.rels.length == b.rels.length

/-- bean.hpp:126 `symtree_t`. -/
abbrev SymTree := List Symbol

/-- bean.hpp:431-434 `Bean::get`. -/
def get (symbols : SymTree) (address : Addr) : Option Symbol :=
  match Tree.floor symbols address with
  | some sym => if address < sym.address + sym.size then some sym else none
  | none => none

/-- bean.hpp:436-438 `Bean::find`. -/
def find (symbols : SymTree) (address : Addr) : Option Symbol := Tree.floor symbols address

end Bean

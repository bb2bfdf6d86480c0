import Verif.Model.ElfSummary
import Verif.Spec.ElfTables
import Verif.Spec.DwarfTypes
/-
Functions and types of a summary (C98, C99).
-/
namespace Bean.Spec
open Bean

/-- A name of the symbol table stands for a name: it is this name, possibly with a version. -/
def NameOf (full n : Str) : Prop := '@' ∉ n ∧ (full = n ∨ ∃ version, full = n ++ '@' :: version)

/-- The file exports a function of this name at this address. -/
def Exports (ss : List TableSym) (n : Str) (a : Int) : Prop :=
  ∃ s ∈ ss, NameOf s.name n ∧ s.value = a ∧ a ≠ 0 ∧ s.type = .func ∧ s.isGlobal = true ∧ 0 < s.size ∧ s.shndx ≠ .undef

/-- The prototype of a function under a name. -/
def Prototype (f : FuncInfo) (n text : Str) : Prop := text = f.ret ++ " ".toList ++ n ++ "(".toList ++ f.params ++ ")".toList

/-- An entry that defines a function, with a name. -/
def DefinesFunc (onlyExternal : Bool) (d : FuncDie) : Prop :=
  d.tag = "subprogram".toList ∧ d.declaration = false ∧ (onlyExternal = true → d.external = true) ∧ (d.linkage_name ≠ none ∨ d.name ≠ none)

/-- A parameter of a function. -/
def IsParam (dies : Dies) (c : Nat) : Prop := ∃ d, dies c = some d ∧ d.tag = "formal_parameter".toList

/-- What is delivered for a function: its name (the one for the linker if there is one), address, type of the result, and the types of the
parameters in order. -/
def FuncOf (o : TypeOpts) (dies : Dies) (d : FuncDie) (f : FuncInfo) : Prop :=
  (∀ n, d.linkage_name = some n → f.name = n) ∧ (d.linkage_name = none → d.name = some f.name) ∧
    (∀ a, d.low_pc = some a → f.addr = a) ∧ (d.low_pc = none → f.addr = 0) ∧
    (∀ t, d.type = some t → dies t ≠ none → ∃ ti, HasType o dies t true ti ∧ f.ret = ti.ident) ∧
    ((∀ t, d.type = some t → dies t = none) → f.ret = "void".toList) ∧
    ∃ (ps : List Nat) (ts : List TypeInfo), List.Sublist ps d.children ∧ (∀ c ∈ d.children, IsParam dies c → c ∈ ps) ∧ (∀ c ∈ ps, IsParam dies c) ∧
      ts.length = ps.length ∧ (∀ (i : Nat) c t, ps[i]? = some c → ts[i]? = some t → HasType o dies c true t) ∧
      f.params = ", ".toList.intercalate (ts.map (·.ident))

/-- Functions at another base address. -/
def moveFunc (k : Int) (d : FuncDie) : FuncDie := { d with low_pc := d.low_pc.map (· + k) }

/-- An entry whose type is listed: a struct, class, union or enumeration, unless it is declared in a system header. -/
def ListsType (dies : Dies) (system : Bool) (e : TypeEntry) : Prop :=
  ∃ d, dies e.id = some d ∧ d.tag ∈ ["structure_type".toList, "class_type".toList, "union_type".toList, "enumeration_type".toList] ∧
    (system = true ∨ ∀ s, e.decl = some s → ¬ ("/usr/include/".toList <+: s) ∧ ¬ ("/usr/local/include/".toList <+: s) ∧
      ¬ ("/usr/lib/gcc/".toList <+: s))

end Bean.Spec

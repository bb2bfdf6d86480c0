import Verif.Model.ElfVars
/-
Notions for the summary of variables (C55 to C57, C80, C81).
-/
namespace Bean.Spec
open Bean

/-- What distinguishes variables. -/
def ident (v : Var) : Str × Int × Str := (v.category, v.value, v.name)

/-- Order of categories, then values, then names. -/
def EarlierId (a b : Str × Int × Str) : Prop :=
  a.1 < b.1 ∨ (a.1 = b.1 ∧ (a.2.1 < b.2.1 ∨ (a.2.1 = b.2.1 ∧ a.2.2 < b.2.2)))

def Earlier (a b : Var) : Prop := EarlierId (ident a) (ident b)

/-- What a variable contributes to a hash without names. -/
def layout (v : Var) : Option Str × Int × Int × Int := (v.hash, v.value, v.align, v.size)

/-- The variable of the symbol table with the type of the debug information. -/
def Combined (s d v : Var) : Prop :=
  v = { s with hash := d.hash } ∧ d.value = s.value ∧ d.name <+: s.name ∧ d.size = s.size ∧ d.category = s.category

/-- The options of a key. -/
def keyed (a : VarArgs) : List Bool :=
  [a.dbgsym, a.dbgsym_extern, a.verbose, a.aliases, a.names, a.datatypes, a.functions, a.writable]

/-- A build identifier: text without comma that differs from the word for a missing one; hexadecimal digits are. -/
def ValidId (id : Option Str) : Prop := ∀ s, id = some s → ',' ∉ s ∧ s ≠ "None".toList

/-- The answer that would be computed. -/
def fresh {ρ : Type} (r : VarRequest ρ) : Option ρ := r.buildid.bind (fun _ => r.summary)

/-- Requests that have the same key. -/
def SameKey {ρ : Type} (r r' : VarRequest ρ) : Prop :=
  ∃ id, r.buildid = some id ∧ r'.buildid = some id ∧ keyed r.args = keyed r'.args

end Bean.Spec

import Verif.Model.ElfTables
/-
Positions of variables in a file (C97).
-/
namespace Bean.Spec
open Bean

/-- A header and the symbol table of the same file for another base address. Thread-local variables count from the start of their block. -/
def moveHeader (k : Int) (p : VarHeader) : VarHeader := { p with vaddr := p.vaddr + k }

def moveSym (k : Int) (s : TableSym) : TableSym := if s.type = .tls then s else { s with value := s.value + k }

def moveVar (k : Int) (d : DwVar) : DwVar := { d with value := d.value + k }

def moveDebug (k : Int) (debug : Option DebugLists) : Option DebugLists := debug.map (fun x => (x.1.map (moveVar k), x.2))

/-- A variable lies in the memory described by a header. -/
def InMemory (p : VarHeader) (a n : Int) : Prop := p.vaddr ≤ a ∧ a + n ≤ p.vaddr + p.memsz

/-- What the standard demands of segments: loaded ones are in ascending order and do not overlap. Further the block of thread-local variables
comes behind them in the table. -/
def Arranged (ps : List VarHeader) : Prop :=
  ps.Pairwise (fun p q => (p.kind = .load → q.kind = .load → p.vaddr + p.memsz ≤ q.vaddr) ∧ (p.kind = .tls → q.kind ≠ .load)) ∧
    ps.Pairwise (fun p q => p.kind = .relro → q.kind ≠ .relro)

/-- Letters of the permissions. -/
def permissions (p : VarHeader) : Str :=
  (if p.r then ['R'] else []) ++ (if p.w then ['W'] else []) ++ (if p.x then ['X'] else [])

/-- The memory a variable is part of: a loaded segment, or the memory protected after relocation if it is completely in this. -/
def PartOf (ps : List VarHeader) (a n : Int) (m : VarHeader) : Prop :=
  ∃ p ∈ ps, p.kind = .load ∧ InMemory p a n ∧
    ((p.w = true ∧ m ∈ ps ∧ m.kind = .relro ∧ InMemory m a n) ∨
      (m = p ∧ ¬ (p.w = true ∧ ∃ r ∈ ps, r.kind = .relro ∧ InMemory r a n)))

/-- The position of a variable: its category are the permissions, its value counts from the start of the first page of the memory, and its
alignment is the offset in its page. -/
def PositionedIn (m : VarHeader) (a n : Int) (v : Var) : Prop :=
  v.category = permissions m ∧ v.value + 4096 * (m.vaddr / 4096) = a ∧ v.align = a % 4096 ∧ v.size = n

/-- A symbol for a variable: its section is part of a segment, and each segment its section is part of is loaded and contains it. -/
def Sits (ps : List VarHeader) (s : TableSym) : Prop :=
  ∃ i, s.shndx = .index i ∧ (∃ p ∈ ps, (p.kind = .load ∨ p.kind = .tls) ∧ i ∈ p.sections) ∧
    ∀ p ∈ ps, (p.kind = .load ∨ p.kind = .tls) → i ∈ p.sections → p.kind = .load ∧ InMemory p s.value s.size

/-- The variable does not end exactly where the protected memory ends. -/
def NotAtEnd (ps : List VarHeader) (a n : Int) : Prop := ∀ r ∈ ps, r.kind = .relro → a + n ≠ r.vaddr + r.memsz

/-- Entries of the symbol table for variables: objects, common and thread-local symbols with a size that are not imported. -/
structure VariableEntry (s : TableSym) : Prop where
  present : s.shndx ≠ .undef
  kind : s.type ∈ [.object, .common, .tls]
  nonempty : 0 < s.size

instance (s : TableSym) : Decidable (VariableEntry s) :=
  decidable_of_iff (s.shndx ≠ .undef ∧ s.type ∈ [.object, .common, .tls] ∧ 0 < s.size) ⟨fun ⟨a, b, c⟩ => ⟨a, b, c⟩, fun ⟨a, b, c⟩ => ⟨a, b, c⟩⟩

end Bean.Spec

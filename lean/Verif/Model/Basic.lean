/-
Basic vocabulary of the model: addresses, faults, containers.

The container library dlh is a git submodule that is not part of /repo, so its semantics is an assumption:
 * `TreeSet<T, Cmp>` keeps its elements strictly ordered by `Cmp`; `insert`/`emplace` keep an already present
   equal element and report `false`; `floor`/`ceil` give the closest element at or below / at or above.
 * `HashSet<T, Cmp>` finds an element iff an element with equal hash for which `Cmp::equal` holds was inserted;
   iteration is in order of insertion; `insert`/`emplace` keep an already present equal element.
-/
namespace Bean

/-- `uintptr_t` / `size_t` / `uint64_t` on the 64-bit host Bean runs on. -/
abbrev Addr := BitVec 64

/-- Abnormal end of a computation: failed `assert` (only if assertions are compiled in) or undefined
behaviour (dereference of a null iterator, access outside of the mapped file). -/
inductive Fault where
  | assert
  | ub
deriving DecidableEq, Repr

/-- Build type: are `assert`s compiled in (`debug`) or not (`release`, i.e. `NDEBUG`)? -/
inductive Build where
  | debug
  | release
deriving DecidableEq, Repr

/-- Computations that can fault. -/
abbrev M := Except Fault

/-- `assert(c)`: no effect in a release build, ends the computation in a debug build if `c` is false. -/
def massert (b : Build) (c : Bool) : M Unit :=
  match b, c with
  | .debug, false => .error .assert
  | _, _ => .ok ()

/-- `assert(it)` followed by a use `*it` of a possibly invalid iterator: in a debug build the assertion fails,
in a release build the dereference is undefined behaviour. -/
def mderef {α : Type} (b : Build) : Option α → M α
  | some x => .ok x
  | none => match b with
    | .debug => .error .assert
    | .release => .error .ub

/-- Element types of a `TreeSet` ordered by an address-like key. -/
class Keyed (α : Type) where
  key : α → Addr

export Keyed (key)

/-- Plain `TreeSet<uintptr_t>`. -/
instance : Keyed Addr := ⟨id⟩

/-! dlh `TreeSet`, modelled by the list of its elements in ascending order of the key. -/
namespace Tree
variable {α : Type} [Keyed α]

/-- Representation invariant: strictly ascending keys. -/
def Sorted (t : List α) : Prop := t.Pairwise (fun a b => key a < key b)

/-- `TreeSet::find`: element with exactly this key. -/
def find (t : List α) (k : Addr) : Option α := t.find? (fun x => key x == k)

/-- `TreeSet::floor`: greatest element with key at most `k`. -/
def floor (t : List α) (k : Addr) : Option α := (t.filter (fun x => decide (key x ≤ k))).getLast?

/-- `TreeSet::ceil`: least element with key at least `k`. -/
def ceil (t : List α) (k : Addr) : Option α := t.find? (fun x => decide (k ≤ key x))

/-- `TreeSet::insert` / `emplace`: an element with the same key is kept; the flag tells if it was inserted. -/
def insert : List α → α → List α × Bool
  | [], x => ([x], true)
  | y :: ys, x =>
    if key x < key y then (x :: y :: ys, true)
    else if key x = key y then (y :: ys, false)
    else
      let r := insert ys x
      (y :: r.1, r.2)

/-- `TreeSet::erase` by key. -/
def erase (t : List α) (k : Addr) : List α := t.filter (fun x => key x != k)

/-- Assignment through an iterator to the element with key `k` (the key is left unchanged by all uses). -/
def modify (t : List α) (k : Addr) (f : α → α) : List α := t.map (fun x => if key x = k then f x else x)

/-- Construction of a `TreeSet` from another container: insert all elements. -/
def ofList (l : List α) : List α := l.foldl (fun t x => (insert t x).1) []

end Tree

/-! dlh `HashSet<T>` for plain values, elements in insertion order. -/
namespace HSet
variable {α : Type} [DecidableEq α]

/-- `HashSet::insert` on plain values (`second` tells if the value is new). -/
def insert (s : List α) (x : α) : List α × Bool := if x ∈ s then (s, false) else (s ++ [x], true)

/-- `HashSet::insert` ignoring the flag. -/
def add (s : List α) (x : α) : List α := (insert s x).1

end HSet

/-! dlh `HashMap<K, V>`: `insert` keeps the value of an already present key. -/
namespace HMap
variable {κ ν : Type} [DecidableEq κ]

def find (m : List (κ × ν)) (k : κ) : Option ν := m.lookup k

def insert (m : List (κ × ν)) (k : κ) (v : ν) : List (κ × ν) :=
  match m.lookup k with
  | some _ => m
  | none => m ++ [(k, v)]

def erase (m : List (κ × ν)) (k : κ) : List (κ × ν) := m.filter (fun e => e.1 ≠ k)

end HMap

end Bean

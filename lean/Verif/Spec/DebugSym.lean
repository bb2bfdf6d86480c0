import Verif.Model.DebugSym
/-
Vocabulary for the search for debug symbols.
-/
namespace Bean.Spec

/-- `p` is the first element that exists. -/
def FirstIn {α : Type} (exists_ : α → Bool) (l : List α) (p : α) : Prop :=
  ∃ pre post, l = pre ++ p :: post ∧ exists_ p = true ∧ ∀ q ∈ pre, exists_ q = false

/-- The buffer of a build identifier has the text `id`. -/
def HasText (value id : Str) : Prop := ∃ rest, value = id ++ '\x00' :: rest ∧ '\x00' ∉ id

/-- The places a debug file is looked for, in this order (`id` is empty if there is no build identifier). -/
def places (root dir file : Str) (link : Option Str) (id : Str) : List Str :=
  let glob := root ++ "/usr/lib/debug/".toList
  let dbg := ".debug".toList
  (match link with
    | some l => [root ++ '/' :: dir ++ '/' :: l, root ++ '/' :: dir ++ "/.debug/".toList ++ l, glob ++ dir ++ l]
    | none => []) ++
  (if id = [] then [] else [glob ++ ".build-id/".toList ++ id.take 2 ++ '/' :: id.drop 2 ++ dbg]) ++
  [root ++ '/' :: dir ++ '/' :: file ++ dbg, root ++ '/' :: dir ++ "/.debug/".toList ++ file ++ dbg, glob ++ dir ++ '/' :: file ++ dbg,
   root ++ '/' :: dir ++ "/.debug/".toList ++ file, glob ++ dir ++ '/' :: file]

/-- The section contains debug information. -/
def HasDebug (sec : DbgSec) : Prop := ∃ rest, sec.name = ".debug_".toList ++ rest

/-- The content of the last section with a debug link. -/
def LinkOf (secs : List DbgSec) (link : Option Str) : Prop :=
  match link with
  | none => ∀ s ∈ secs, s.name ≠ ".gnu_debuglink".toList
  | some l => ∃ pre s post, secs = pre ++ s :: post ∧ s.name = ".gnu_debuglink".toList ∧ l = cString s.data ∧
      ∀ q ∈ post, q.name ≠ ".gnu_debuglink".toList

/-- A name of a file. -/
def IsName (p : Str) : Prop := p ≠ [] ∧ '/' ∉ p ∧ p ≠ ['.']

/-- The directory `d` is the root or below of it. -/
def Below (root d : Str) : Prop := d = root ∨ ∃ rel, d = root ++ '/' :: rel

end Bean.Spec

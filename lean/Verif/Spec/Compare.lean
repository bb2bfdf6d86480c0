import Verif.Model.Compare
/-
Notions for the comparison of versions (C60).
-/
namespace Bean.Spec

/-- Without patterns each name is admitted, otherwise those that match one of them. -/
def Admits (patterns : List (Str → Bool)) (name : Str) : Prop := patterns = [] ∨ ∃ p ∈ patterns, p name = true

end Bean.Spec

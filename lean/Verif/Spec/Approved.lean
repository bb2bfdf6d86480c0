import Verif.Spec.Diff
import Verif.Spec.HashData
/-
Specification vocabulary for approved updates.
-/
namespace Bean.Spec

/-- The symbol `o` of the old version is taken for the symbol `s` of the new one (bean.hpp:400-409): by identity (0), for
writeable symbols by internal identifier (1), for all but executable symbols by internal identifier (2), by internal
identifier (3). -/
def Matches (mode : Nat) (o s : Symbol) : Prop :=
  match mode with
  | 0 => SameIdentity o s
  | 1 => if s.sec.writeable = true then SameInternal o s else SameIdentity o s
  | 2 => if s.sec.executable = true then SameIdentity o s else SameInternal o s
  | _ => SameInternal o s

instance (mode : Nat) (o s : Symbol) : Decidable (Matches mode o s) := by
  unfold Matches
  split <;> infer_instance

/-- A variable that the running program may change: sized, writeable, and neither read-only after relocation nor part of
exception frames or the dynamic section. -/
structure Variable (s : Symbol) : Prop where
  sized : s.size ≠ 0
  data : s.sec.executable = false
  writeable : s.sec.writeable = true
  relro : s.sec.flags.getLsbD 0 = false
  dynamic : s.sec.flags.getLsbD 2 = false
  frames : s.sec.flags.getLsbD 10 = false

/-- What identifies the variable `s` with the initial value `c`. -/
def variableInput (env : Env) (fl : AnalyzeFlags) (s : Symbol) (c : List (BitVec 8)) : List (BitVec 8) :=
  pageBytes s ++ c ++ attributeBytes env fl s

/-- The hash does not take these two texts for each other. -/
def Told (env : Env) (x y : List (BitVec 8)) : Prop := env.xxhash x = env.xxhash y → x = y

end Bean.Spec

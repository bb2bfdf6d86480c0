import Verif.Model.DaemonScript
/-
What the script for the daemon is meant to do (C115).
-/
namespace Bean
namespace Spec
open DaemonScript (Found)

/-- A word: not empty, without separators. -/
def BashWord (s : List Char) : Prop := s ≠ [] ∧ ' ' ∉ s ∧ '\t' ∉ s ∧ '\n' ∉ s

instance (s : List Char) : Decidable (BashWord s) := by unfold BashWord; infer_instance

/-- An argument in front of `--`: prefix of the cache, or socket and directories. -/
inductive Argument where
  | cache (p : List Char)
  | place (a : List Char)
deriving DecidableEq, Repr

/-- The argument as written. -/
def Argument.text : Argument → List (List Char)
  | .cache p => ["-c".toList, p]
  | .place a => [a]

/-- The argument consists of words and is not mistaken for an option. -/
def Argument.Plain : Argument → Prop
  | .cache p => BashWord p
  | .place a => BashWord a ∧ a ≠ "-h".toList ∧ a ≠ "-c".toList ∧ a ≠ "-N".toList ∧ a ≠ "--".toList

/-- Places in their order: the socket is the first, the others are directories. -/
def placesOf (l : List Argument) : List (List Char) := l.filterMap (fun x => match x with | .place a => some a | .cache _ => none)

/-- The last prefix counts. -/
def cacheOf (l : List Argument) : List Char :=
  match (l.filterMap (fun x => match x with | .cache p => some p | .place _ => none)).getLast? with
  | some p => p
  | none => ".elfvarsd-cache".toList

/-- The usage tells: default socket. -/
def socketWish (l : List Argument) : List Char :=
  match placesOf l with
  | [] => "0.0.0.0:9001".toList
  | s :: _ => s

/-- The command uses debug symbols (tools/elfvars.py:365: only the option `-d` counts, against its usage, where `-D` implies it). -/
def UsesDebug (call : List (List Char)) : Prop := "-d".toList ∈ call

/-- Options of the usage. -/
def usualOptions : List (List Char) := ["-d", "-D", "-t", "-f", "-w", "-p"].map String.toList

/-- Options that are meant: own ones instead of the default ones, without the option for debug symbols if requested. -/
def optionsWish (nodebug : Bool) (own : Option (List (List Char))) : List (List Char) :=
  (match own with
    | some l => l
    | none => usualOptions).filter (fun a => !nodebug || a ≠ "-d".toList)

/-- A shared object. -/
def SharedObject (f : Found) : Prop := "shared object".toList <:+: f.description

/-- Expected commands for given options and cache. -/
def callsWish (options : List (List Char)) (cache : List Char) (files : List Char → List (List Char)) (l : List Argument) : List (List (List Char)) :=
  ((placesOf l).drop 1).map (fun d => options ++ ["-c".toList, cache, "-b".toList, d] ++ files d) ++
    if (socketWish l).map Char.toLower = "cache".toList then [] else [options ++ ["-c".toList, cache, "-s".toList, socketWish l]]

end Spec
end Bean

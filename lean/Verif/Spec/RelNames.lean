import Verif.Spec.Listing
import Verif.Model.Header
/-
Types of relocations of i386 (C130).
-/
namespace Bean.Spec

/-- Numbers of relocations for i386 (System V ABI, Intel386 supplement, with the extensions for thread-local storage). -/
def abiRelocations32 : List (String × Nat) :=
  [("NONE", 0), ("32", 1), ("PC32", 2), ("GOT32", 3), ("PLT32", 4), ("COPY", 5), ("GLOB_DAT", 6), ("JMP_SLOT", 7), ("RELATIVE", 8), ("GOTOFF", 9),
   ("GOTPC", 10), ("32PLT", 11), ("TLS_TPOFF", 14), ("TLS_IE", 15), ("TLS_GOTIE", 16), ("TLS_LE", 17), ("TLS_GD", 18), ("TLS_LDM", 19), ("16", 20),
   ("PC16", 21), ("8", 22), ("PC8", 23), ("TLS_GD_32", 24), ("TLS_GD_PUSH", 25), ("TLS_GD_CALL", 26), ("TLS_GD_POP", 27), ("TLS_LDM_32", 28),
   ("TLS_LDM_PUSH", 29), ("TLS_LDM_CALL", 30), ("TLS_LDM_POP", 31), ("TLS_LDO_32", 32), ("TLS_IE_32", 33), ("TLS_LE_32", 34), ("TLS_DTPMOD32", 35),
   ("TLS_DTPOFF32", 36), ("TLS_TPOFF32", 37), ("SIZE32", 38), ("TLS_GOTDESC", 39), ("TLS_DESC_CALL", 40), ("TLS_DESC", 41), ("IRELATIVE", 42),
   ("GOT32X", 43)]

/-- The number of a type `R_386_…`. -/
def readRelType32 (s : List Char) : Option Nat :=
  if s.take 6 = "R_386_".toList then abiRelocations32.lookup (String.ofList (s.drop 6)) else none

/-- Numbers of machines (System V ABI). -/
def abiMachine (m : Machine) : Nat := if m = .x86_64 then 62 else if m = .i386 then 3 else if m = .i486 then 6 else
  match m with
  | .other n => n
  | _ => 0

/-- The numbers, where the text behind the first one is given separately. -/
def readNumbers (m : List Char) (r : List Char) : Option (Nat × Nat) :=
  if r.take 1 = ":".toList ∧ r.dropWhile (· != ']') = "]\n".toList then some (numeral 16 m, numeral 16 ((r.drop 1).takeWhile (· != ']'))) else none

/-- Machine and type of a relocation that is shown by numbers. -/
def readUnnamed (s : List Char) : Option (Nat × Nat) :=
  if s.take 1 = "[".toList then readNumbers ((s.drop 1).takeWhile (· != ':')) ((s.drop 1).dropWhile (· != ':')) else none

end Bean.Spec

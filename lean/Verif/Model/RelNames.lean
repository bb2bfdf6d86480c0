import Verif.Model.Listing
import Verif.Model.Header
/-
Types of relocations in the detailed listing, for all machines (src/dump.cpp:6-278, 452-453).
-/
namespace Bean
namespace RelNames

/-- dump.cpp:10-139: names of the relocations for i386. -/
def relTypeNames32 : List (Nat × String) :=
  [(0, "NONE"), (1, "32"), (2, "PC32"), (3, "GOT32"), (4, "PLT32"), (5, "COPY"), (6, "GLOB_DAT"), (7, "JMP_SLOT"), (8, "RELATIVE"), (9, "GOTOFF"),
   (10, "GOTPC"), (11, "32PLT"), (14, "TLS_TPOFF"), (15, "TLS_IE"), (16, "TLS_GOTIE"), (17, "TLS_LE"), (18, "TLS_GD"), (19, "TLS_LDM"), (20, "16"),
   (21, "PC16"), (22, "8"), (23, "PC8"), (24, "TLS_GD_32"), (25, "TLS_GD_PUSH"), (26, "TLS_GD_CALL"), (27, "TLS_GD_POP"), (28, "TLS_LDM_32"),
   (29, "TLS_LDM_PUSH"), (30, "TLS_LDM_CALL"), (31, "TLS_LDM_POP"), (32, "TLS_LDO_32"), (33, "TLS_IE_32"), (34, "TLS_LE_32"), (35, "TLS_DTPMOD32"),
   (36, "TLS_DTPOFF32"), (37, "TLS_TPOFF32"), (38, "SIZE32"), (39, "TLS_GOTDESC"), (40, "TLS_DESC_CALL"), (41, "TLS_DESC"), (42, "IRELATIVE"), (43, "GOT32X")]

/-- Numbers of the machines (ELF specification). -/
def machineNumber : Machine → Nat
  | .i386 => 3
  | .i486 => 6
  | .x86_64 => 62
  | .other n => n

/-- dump.cpp:452-453: types without name; the stream prints numbers with base 16 since the offset was written. -/
def unnamedText (m : Machine) (type : Addr) : Str :=
  '[' :: Nat.toDigits 16 (machineNumber m) ++ ':' :: Nat.toDigits 16 type.toNat ++ "]\n".toList

/-- dump.cpp:6-278: the name of a type, absent if the function returns false. -/
def relName (m : Machine) (type : Addr) : Option Str :=
  match m with
  | .i386 => (relTypeNames32.find? (fun x => x.1 = type.toNat)).map (fun x => "R_386_".toList ++ x.2.toList)
  | .i486 => (relTypeNames32.find? (fun x => x.1 = type.toNat)).map (fun x => "R_386_".toList ++ x.2.toList)
  | .x86_64 => (relTypeNames.find? (fun x => x.1 = type.toNat)).map (fun x => "R_X86_64_".toList ++ x.2.toList)
  | .other _ => none

/-- dump.cpp:452-453: the type of a relocation as shown. -/
def relText (m : Machine) (type : Addr) : Str :=
  match relName m type with
  | some s => s
  | none => unnamedText m type

end RelNames
end Bean

import Verif.Spec.Run
import Verif.Spec.HashData
/-
Vocabulary for what the analysis takes from the file.
-/
namespace Bean.Spec

/-- The loaded segments. -/
def loadSegments (elf : Elf) : List ElfSeg := elf.segments.filter (fun seg => decide (seg.type = .load))

/-- The segment for thread-local storage, the last one if there are several. -/
def tlsSegment (elf : Elf) : Option ElfSeg := (elf.segments.filter (fun seg => decide (seg.type = .tls))).getLast?

/-- The address of the global offset table according to the dynamic segment (the last one, zero without). -/
def gotAddress (elf : Elf) : Addr :=
  match (((elf.segments.filter (fun seg => decide (seg.type = .dynamic))).flatMap (·.dynamic)).filter
      (fun e => decide (e.1 = .pltgot))).getLast? with
  | some e => e.2
  | none => 0

/-- The files the relocations are taken from. -/
def partsOf (elf : Elf) (dbgsym : Option Elf) : List Elf := elf :: dbgsym.toList

/-- The relocations of the files in the order of the tables. -/
def allRelocations (elf : Elf) (dbgsym : Option Elf) : List ElfRel :=
  (partsOf elf dbgsym).flatMap (fun d => d.sections.flatMap (fun sec =>
    if sec.size ≠ 0 ∧ (sec.type = .rel ∨ sec.type = .rela) then sec.relocations else []))

/-- The locations of the packed relative relocations of the files. -/
def allRelative (elf : Elf) (dbgsym : Option Elf) : List Addr :=
  (partsOf elf dbgsym).flatMap (fun d => d.sections.flatMap (fun sec =>
    if sec.size ≠ 0 ∧ sec.type = .relr then sec.relative else []))

/-- The section at an address of the memory image: the closest one in front. -/
structure SectionOf (elf : Elf) (a : Addr) (sec : ElfSec) : Prop where
  loaded : Loaded elf sec
  start : (secStart sec).toNat ≤ a.toNat
  closest : ∀ sec', Loaded elf sec' → (secStart sec').toNat ≤ a.toNat →
    sec' = sec ∨ (secStart sec').toNat < (secStart sec).toNat

/-- The content of a symbol in the file. -/
def ContentOf (elf : Elf) (s : Symbol) (bytes : List (BitVec 8)) : Prop :=
  ∃ sec, SectionOf elf s.address sec ∧
    (TLS.virt_addr s.address - sec.virt_addr).toNat + s.size.toNat ≤ sec.data.length ∧
    bytes = (sec.data.drop (TLS.virt_addr s.address - sec.virt_addr).toNat).take s.size.toNat

end Bean.Spec

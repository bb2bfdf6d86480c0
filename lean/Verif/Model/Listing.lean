import Verif.Model.Tools
import Verif.Model.DwarfVars
/-
Text of the listings of symbols (src/dump.cpp).

Assumptions on the streams of the library dlh, whose source is not part of /repo: `hex`, `dec`, `setfill`, `left` and `right` act as in the
standard library and last until they are changed or `reset`, `setw` holds for the next number or text.
-/
namespace Bean

/-- Text filled with blanks on the left (`right << setw(n)`). -/
def padLeft (n : Nat) (s : Str) : Str := List.replicate (n - s.length) ' ' ++ s

/-- Text filled with blanks on the right (`left << setw(n)`). -/
def padRight (n : Nat) (s : Str) : Str := s ++ List.replicate (n - s.length) ' '

/-- `setfill('0') << hex << setw(16)` -/
def hex16 (x : BitVec 64) : Str := padZeros 16 (Nat.toDigits 16 x.toNat)

/-- A name, unless it is null or empty (`name != nullptr && name[0] != '\0'`). -/
def shownName (n : Option String) : Option Str :=
  match n with
  | some s => if s.toList = [] then none else some s.toList
  | none => none

/-- dump.cpp:281-293 `dump_type` -/
def symTypeText : SymType → Str
  | .none => "none".toList
  | .object => "object".toList
  | .func => "function".toList
  | .section => "section".toList
  | .file => "filename".toList
  | .common => "common".toList
  | .tls => "TLS".toList
  | .indirectFunc => "indirect".toList
  | .unknown => "unknown".toList

/-- dump.cpp:295-302 `dump_bind` -/
def symBindText : SymBind → Str
  | .weak => "weak".toList
  | .local => "local".toList
  | .global => "global".toList

/-- dump.cpp:304-308 `Identifier::dump` -/
def symIdText (i : Identifier) : Str := '{' :: hex16 i.internal ++ ' ' :: hex16 i.external ++ ['}']

/-- dump.cpp:368-375 `dump_header` -/
def listHeader (level : Nat) : Str :=
  if level = 0 then "{ID               ID refs         }\n".toList
  else if level = 1 then
    "{ID               ID refs         } [Ref / Rel / Dep] - Address              Size Type     Bind  Flag Name (Section)\n".toList
  else []

/-- dump.cpp:391-392: the name. -/
def nameText : Option Str → Str
  | some n => ' ' :: n
  | none => []

/-- dump.cpp:393-394: the section. -/
def secText : Option String → Str
  | some n => ' ' :: '(' :: n.toList ++ [')']
  | none => []

/-- dump.cpp:391-394: name and section. -/
def nameColumn (s : Symbol) : Str := nameText (shownName s.name) ++ secText s.sec.name

/-- dump.cpp:390: permissions and thread-local storage. -/
def flagColumn (s : Symbol) : Str :=
  [if s.sec.writeable then (if s.sec.has SECTION_RELRO then 'R' else 'W') else ' ', if s.sec.executable then 'X' else ' ',
    if TLS.is_tls s.address then 'T' else ' ']

/-- dump.cpp:381-394: the columns behind the identifiers. -/
def columns (s : Symbol) : Str :=
  " [".toList ++ (padLeft 3 (Nat.toDigits 10 s.refs.length) ++ (" / ".toList ++ (padLeft 3 (Nat.toDigits 10 s.rels.length) ++
  (" / ".toList ++ (padLeft 3 (Nat.toDigits 10 s.deps.length) ++ ("] - 0x".toList ++ (hex16 (TLS.virt_addr s.address) ++
  (padLeft 7 (Nat.toDigits 10 s.size.toNat) ++ (' ' :: (padRight 9 (symTypeText s.type) ++ (padRight 6 (symBindText s.bind) ++
  (' ' :: (flagColumn s ++ nameColumn s)))))))))))))

/-- dump.cpp:377-396: the line of a symbol for the levels `NONE` (0) and `VERBOSE` (1), without the newline. -/
def listLine (level : Nat) (s : Symbol) : Str := symIdText s.id ++ (if level = 1 then columns s else [])

/-- dump.cpp:535-544: the listing for the levels `NONE` and `VERBOSE`. -/
def listSymbols (level : Nat) (symbols : SymTree) : M Str :=
  match symbols.getLast? with
  | none => .error .ub
  | some _ => .ok (listHeader level ++ symbols.flatMap (fun s => listLine level s ++ ['\n']))

/-! ### References and relocations -/

/-- `"0x" << hex`, with the mark for thread-local storage. -/
def placeText (v : Addr) : Str :=
  (if TLS.is_tls v then "TLS:".toList else []) ++ '0' :: 'x' :: Nat.toDigits 16 (TLS.virt_addr v).toNat

/-- dump.cpp:343-366 `dump_address` -/
def addressText (symbols : SymTree) (v : Addr) : Str :=
  placeText v ++
    match Tree.floor symbols v with
    | some y =>
      if TLS.is_tls y.address = TLS.is_tls v then
        " <".toList ++ (match y.name with
          | some n => n.toList
          | none => placeText y.address) ++
        (match y.sec.name with
          | some n => '/' :: n.toList
          | none => []) ++
        (if y.address ≠ v then " + ".toList ++ Nat.toDigits 10 (v - y.address).toNat else []) ++ ['>']
      else []
    | none => []

/-- dump.cpp:141-271: names of the relocations for x86-64. -/
def relTypeNames : List (Nat × String) :=
  [(0, "NONE"), (1, "64"), (2, "PC32"), (3, "GOT32"), (4, "PLT32"), (5, "COPY"), (6, "GLOB_DAT"), (7, "JUMP_SLOT"), (8, "RELATIVE"),
   (9, "GOTPCREL"), (10, "32"), (11, "32S"), (12, "16"), (13, "PC16"), (14, "8"), (15, "PC8"), (16, "DTPMOD64"), (17, "DTPOFF64"),
   (18, "TPOFF64"), (19, "TLSGD"), (20, "TLSLD"), (21, "DTPOFF32"), (22, "GOTTPOFF"), (23, "TPOFF32"), (24, "PC64"), (25, "GOTOFF64"),
   (26, "GOTPC32"), (27, "GOT64"), (28, "GOTPCREL64"), (29, "GOTPC64"), (30, "GOTPLT64"), (31, "PLTOFF64"), (32, "SIZE32"),
   (33, "SIZE64"), (34, "GOTPC32_TLSDESC"), (35, "TLSDESC_CALL"), (36, "TLSDESC"), (37, "IRELATIVE"), (38, "RELATIVE64"),
   (41, "GOTPCRELX"), (42, "REX_GOTPCRELX"), (250, "GNU_VTINHERIT"), (251, "GNU_VTENTRY")]

/-- dump.cpp:141-274, 452-453: the type of a relocation; numbers without name are printed with the machine (62) and a newline. -/
def relTypeText (type : Addr) : Str :=
  match relTypeNames.find? (fun x => x.1 = type.toNat) with
  | some x => "R_X86_64_".toList ++ x.2.toList
  | none => "[3e:".toList ++ Nat.toDigits 16 type.toNat ++ "]\n".toList

/-- dump.cpp:457-476: what a relocation refers to. -/
def targetText (symbols : SymTree) (rel : Rel) : Str :=
  match Tree.floor symbols rel.target with
  | some y =>
    (match shownName rel.name, shownName y.name with
      | some n, _ => n ++ [' ']
      | none, some n => n ++ [' ']
      | none, none => '<' :: placeText y.address ++ "> ".toList) ++
    symIdText y.id ++ (if rel.addend ≠ 0 then ' ' :: signedText rel.addend.toInt else [])
  | none => if rel.target = 0 then '0' :: 'x' :: Nat.toDigits 16 rel.addend.toNat else addressText symbols rel.target

/-- dump.cpp:445-476: the line of a relocation without the attributes (italics, faint) and without the access by the instruction. -/
def relLine (symbols : SymTree) (rel : Rel) : Str :=
  "     *0x".toList ++ (Nat.toDigits 16 rel.offset.toNat ++ (" = ".toList ++ (relTypeText rel.type ++ (' ' :: targetText symbols rel))))

end Bean

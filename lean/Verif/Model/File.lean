import Verif.Model.Run
import Verif.Model.DebugSym
/-
Opening of files (include/bean/file.hpp).

The file system is a parameter. Results of system calls other than success end the program (`value_or_die`). Assumptions on the
library dlh, whose source is not part of /repo: `StringStream::str` points into the stream's own buffer; a `BufferStream` of `n` bytes
holds up to `n - 1` characters; `String::copy(to, from, n)` copies up to `n` characters and terminates them. Whether a null pointer may
be written to a stream is a parameter (`nullText`). Messages are left out.
-/
namespace Bean

/-- A text that a pointer refers to, and whether the object it is part of still exists. -/
structure CStr where
  text : Str
  alive : Bool := true
deriving DecidableEq, Repr

/-- End of the program with a message, or a result. -/
inductive Opened (α : Type) where
  | died
  | ready (a : α)
deriving Repr

/-- What matters of the contents of a file: its size, the checks of `ELF_Ident`, `Elf::valid` for a size, the tables for the analysis, and
header and sections for the search for debug symbols. -/
structure Image where
  size : Nat
  identValid : Bool := true
  dataSupported : Bool := true
  classSupported : Bool := true
  valid : Nat → Bool
  elf : Elf
  searchable : Bool := true
  sections : List DbgSec := []

/-- A file system with contents, and whether the streams of dlh accept null pointers. -/
structure Disk extends Fs where
  read : Str → Option Image
  nullText : Bool := true

/-- `sizeof(ELF_Ident)` -/
def identSize : Nat := 16

/-- file.hpp:24-28, 38-43: open, determine the size and map; an empty file cannot be mapped. -/
def mapFile (disk : Disk) (path : CStr) : M (Opened Image) :=
  if path.alive then
    match disk.read path.text with
    | none => .ok .died
    | some img => .ok (if img.size = 0 then .died else .ready img)
  else .error .ub

/-- file.hpp:45-63 `read_content` -/
def readContent (img : Image) (ignoreSize : Bool) : Opened Image :=
  if img.size < identSize || !img.identValid then .died
  else if !img.dataSupported then .died
  else if !img.classSupported then .died
  else if !img.valid (if ignoreSize then 2 ^ 64 - 1 else img.size) then .died
  else .ready img

/-- file.hpp:24-29: the constructor of `ElfFile`. -/
def elfFile (disk : Disk) (path : CStr) (ignoreSize : Bool) : M (Opened Image) :=
  match mapFile disk path with
  | .error e => .error e
  | .ok .died => .ok .died
  | .ok (.ready img) => .ok (readContent img ignoreSize)

/-- file.hpp:84-93 `resolve`: the result is the text in the member `path`. Reading the last character of an empty root is undefined. -/
def resolvePath (disk : Disk) (path : Str) (root : Option Str) : M Str :=
  match disk.exists_ path, root with
  | false, some r =>
    match r.getLast? with
    | none => .error .ub
    | some c =>
      let p := (r ++ (if c = '/' then [] else ['/']) ++ path).take PATH_MAX
      .ok (if disk.exists_ p then p else path.take PATH_MAX)
  | _, _ => .ok (path.take PATH_MAX)

/-- file.hpp:96: the result of the search points to a member of a temporary object, which does not exist any more behind the semicolon. -/
def searchDebug (b : Build) (junk : Str) (disk : Disk) (path : Str) (root : Option Str) (img : Image) : M (Option CStr) :=
  match debugFindElf b junk disk.toFs (debugSymbol disk.toFs (some path) root) img.searchable img.sections with
  | .error e => .error e
  | .ok (none, _) => .ok none
  | .ok (some p, _) => .ok (some { text := p, alive := false })

/-- file.hpp:95-102 `debug_symbols`; line 97 writes the pointer to a stream, even if it is null. -/
def debugSymbols (b : Build) (junk : Str) (disk : Disk) (path : Str) (root : Option Str) (img : Image) : M (Opened (Option Image)) :=
  match searchDebug b junk disk path root img with
  | .error e => .error e
  | .ok none => if disk.nullText then .ok (.ready none) else .error .ub
  | .ok (some p) =>
    match elfFile disk p true with
    | .error e => .error e
    | .ok .died => .ok .died
    | .ok (.ready d) => .ok (.ready (some d))

/-- file.hpp:73-76: the constructor of `BeanFile`. -/
def beanFile (env : Env) (b : Build) (junk : Str) (disk : Disk) (path : Str) (loadDebug : Bool) (fl : AnalyzeFlags) (root : Option Str) :
    M (Opened AState) :=
  match resolvePath disk path root with
  | .error e => .error e
  | .ok p =>
    match elfFile disk { text := p } false with
    | .error e => .error e
    | .ok .died => .ok .died
    | .ok (.ready img) =>
      match (if loadDebug then debugSymbols b junk disk p root img else .ok (.ready none)) with
      | .error e => .error e
      | .ok .died => .ok .died
      | .ok (.ready d) =>
        match analyze env fl img.elf (d.map Image.elf) with
        | .error e => .error e
        | .ok r => .ok (.ready r)

end Bean

import Verif.Model.Basic
/-
Build identifiers (src/build_id.cpp, include/bean/helper/build_id.hpp).

The streams and string functions of the library dlh are not part of /repo. Assumed: `BufferStream(buffer, n)` writes its
characters to the start of the buffer, drops characters beyond the first `n - 1`, and `flush` terminates the text by a null
character, leaving the rest of the buffer as it was; numbers are written with lowercase hexadecimal digits, padded by `setw`
and `setfill`; `String::copy` copies up to the given number of characters and stops after a null character.
-/
namespace Bean

/-- A note as delivered by Elfo. -/
structure Note where
  name : Option String
  type : BitVec 32
  desc : List (BitVec 8)
deriving DecidableEq, Repr

/-- The part of a section that matters here. -/
structure NoteSec where
  isNote : Bool
  notes : List Note
deriving DecidableEq, Repr

/-- `Elf::NT_GNU_BUILD_ID` -/
def NT_GNU_BUILD_ID : BitVec 32 := 3

/-- The size of `BuildID::value` (build_id.hpp:11). -/
def buildIdSize : Nat := 41

/-- A hexadecimal digit as written by the stream. -/
def hexDigit (d : Nat) : Char := if d < 10 then Char.ofNat (48 + d) else Char.ofNat (87 + d)

/-- build_id.cpp:31: `hex << right << setfill('0') << setw(2)` of one byte. -/
def renderByte (b : BitVec 8) : List Char := [hexDigit (b.toNat / 16), hexDigit (b.toNat % 16)]

/-- Writing of a text to a buffer by `BufferStream` and `flush`. -/
def bufferWrite (buf text : List Char) : List Char :=
  let t := text.take (buf.length - 1)
  t ++ '\x00' :: buf.drop (t.length + 1)

/-- build_id.cpp:27 -/
def isBuildId (n : Note) : Bool := n.name == some "GNU" && n.type == NT_GNU_BUILD_ID

/-- build_id.cpp:26-36: the notes of one section; only the first build identifier counts. -/
def readNotes (b : Build) (value : List Char) : List Note → M (List Char)
  | [] => .ok value
  | n :: rest =>
    if isBuildId n then do
      let value := bufferWrite value (n.desc.flatMap renderByte)
      massert b (value[buildIdSize - 1]? == some '\x00')
      return value
    else readNotes b value rest

/-- build_id.cpp:23-37: one section. -/
def readNoteSection (b : Build) (value : List Char) (sec : NoteSec) : M (List Char) :=
  if sec.isNote then readNotes b value sec.notes else .ok value

/-- `value[0] = '\0'` -/
def clearFirst (value : List Char) : List Char := '\x00' :: value.tail

/-- build_id.cpp:18-38: the constructor for a file; `file` is absent for a null pointer or an invalid header. `junk` is the
content of the uninitialised buffer. -/
def buildIdOf (b : Build) (junk : List Char) : Option (List NoteSec) → M (List Char)
  | none => .ok (clearFirst junk)
  | some sections => sections.foldlM (readNoteSection b) (clearFirst junk)

/-- `String::copy(dst, src, n)` into a buffer of at least `n` characters. -/
def stringCopy : Nat → List Char → List Char → List Char
  | 0, dst, _ => dst
  | _, [], _ => []
  | _, dst, [] => dst
  | n + 1, _ :: dst, c :: src => c :: if c = '\x00' then dst else stringCopy n dst src

/-- build_id.cpp:11-16: the constructor for a text (also used for copies); absent for a null pointer. -/
def buildIdText (junk : List Char) : Option (List Char) → List Char
  | none => clearFirst junk
  | some text => stringCopy buildIdSize junk text

/-- build_id.hpp:21-23 `available` -/
def available (value : List Char) : Bool := value.head? != some '\x00'

end Bean

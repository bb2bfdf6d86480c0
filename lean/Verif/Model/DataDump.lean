import Verif.Model.Detail
import Verif.Model.HashInternal
/-
Debug text of data (src/analyze_x86.hpp:347-441; only with `BEAN_VERBOSE` and `FLAG_DEBUG`), without the attributes of the terminal
(colours, italics, underlined).

Further assumption on dlh: `prefix` puts `0x` in front of numbers in base 16, and the width of `setw` includes it. The buffer of the stream
has 1 MiB (analyze.hpp:21); here it is large enough.
-/
namespace Bean

/-- A byte with two digits (`setfill('0') << hex << setw(2)`). -/
def hexByte (v : BitVec 8) : Str := padZeros 2 (Nat.toDigits 16 v.toNat)

/-- Relocations in the loop (analyze_x86.hpp:353-355): the remaining ones (`rel`), `rel_end` and `had_rel`. -/
structure DumpTrack where
  rels : List Rel
  rel_end : Addr := 0
  had_rel : Bool := false

/-- Variables of the loop (analyze_x86.hpp:353-360): the text, relocations, `is_ascii` and `ascii`. -/
structure DumpState where
  out : Str := []
  track : DumpTrack
  is_ascii : Int := 0
  ascii : Str := []

/-- analyze_x86.hpp:363-365: address at the start of a line. -/
def dumpHeader (a : Addr) : Str := padLeft 16 ('0' :: 'x' :: Nat.toDigits 16 a.toNat) ++ [' ']

/-- analyze_x86.hpp:372-378: the relocation in progress ends. -/
def relDone (a : Addr) (tr : DumpTrack) : DumpTrack :=
  if tr.rels ≠ [] ∧ a = tr.rel_end then { tr with rel_end := 0, rels := tr.rels.tail } else tr

/-- analyze_x86.hpp:379-383: a relocation starts. -/
def dumpRelStart (env : Env) (a : Addr) (tr : DumpTrack) : DumpTrack :=
  match tr.rels.head? with
  | none => tr
  | some r => if a = r.offset then { tr with had_rel := true, rel_end := r.offset + env.reloc_size r.type } else tr

/-- analyze_x86.hpp:372-383: relocations at a position. -/
def dumpTrack (env : Env) (a : Addr) (tr : DumpTrack) : DumpTrack := dumpRelStart env a (relDone a tr)

/-- analyze_x86.hpp:384-394: digits and character of a byte. -/
def dumpByte (v : BitVec 8) (st : DumpState) : DumpState :=
  if 32 ≤ v.toNat ∧ v.toNat < 127 then
    { st with out := st.out ++ ' ' :: hexByte v, is_ascii := st.is_ascii + 1
              ascii := st.ascii ++ (if v = 92 then ['\\', '\\'] else [Char.ofNat v.toNat]) }
  else { st with out := st.out ++ ' ' :: hexByte v, is_ascii := st.is_ascii - 1, ascii := st.ascii ++ [' '] }

/-- analyze_x86.hpp:366-395: a position; `bytes` is the content of the symbol. -/
def dumpCell (env : Env) (address size : Addr) (bytes : List (BitVec 8)) (a : Addr) (st : DumpState) : M DumpState :=
  if a < address ∨ a ≥ address + size then .ok { st with out := st.out ++ [' ', ' ', ' '], ascii := st.ascii ++ [' '] }
  else
    match bytes[(a - address).toNat]? with
    | some v => .ok (dumpByte v { st with track := dumpTrack env a st.track })
    | none => .error .ub

/-- An addend (`dec << addend`, bean.hpp:82). -/
def decimalText (i : Int) : Str := if i < 0 then '-' :: Nat.toDigits 10 i.natAbs else Nat.toDigits 10 i.natAbs

/-- analyze_x86.hpp:401-408: a relocation. -/
def relRemark (resolve : Bool) (symbols : SymTree) (r : Rel) : Str :=
  match r.name with
  | some n => n.toList ++ (if r.addend ≠ 0 then ' ' :: '+' :: ' ' :: decimalText r.addend.toInt else [])
  | none => addressText symbols (if resolve then r.target else r.addend)

/-- analyze_x86.hpp:400: relocations listed at the end of the line whose last position is `a`. -/
def remarkRels (rels : List Rel) (a : Addr) : List Rel := (rels.filter (fun r => decide (a - 16 ≤ r.offset))).takeWhile (fun r => decide (r.offset ≤ a))

/-- analyze_x86.hpp:398-416: text behind the bytes. -/
def dumpRemark (resolve : Bool) (symbols : SymTree) (rels : List Rel) (a : Addr) (st : DumpState) : Str :=
  if st.track.had_rel then ' ' :: ' ' :: '#' :: (remarkRels rels a).flatMap (fun r => ' ' :: relRemark resolve symbols r)
  else if st.is_ascii > 0 then ' ' :: ' ' :: '#' :: ' ' :: st.ascii
  else []

/-- analyze_x86.hpp:362-420: a position with start and end of the line. -/
def dumpStep (env : Env) (resolve : Bool) (symbols : SymTree) (s : Symbol) (bytes : List (BitVec 8)) (a : Addr) (st : DumpState) : M DumpState := do
  let st := if a % 16 = 0 then { st with out := st.out ++ dumpHeader a } else st
  let st ← dumpCell env (TLS.virt_addr s.address) s.size bytes a st
  return if (a + 1) % 16 = 0 then
      { st with out := st.out ++ (dumpRemark resolve symbols s.rels a st ++ ['\n']), track := { st.track with had_rel := false }, is_ascii := 0, ascii := [] }
    else st

/-- analyze_x86.hpp:362: `n` positions from `a` on. -/
def dumpLoop (env : Env) (resolve : Bool) (symbols : SymTree) (s : Symbol) (bytes : List (BitVec 8)) : Nat → Addr → DumpState → M DumpState
  | 0, _, st => .ok st
  | n + 1, a, st => do
    let st ← dumpStep env resolve symbols s bytes a st
    dumpLoop env resolve symbols s bytes n (a + 1) st

/-- analyze_x86.hpp:350-422 `hash_internal_debug_data`. The bytes are zero if the symbol is not in the file (`is_bss`). -/
def dumpData (env : Env) (resolve : Bool) (symbols : SymTree) (s : Symbol) (bytes : List (BitVec 8)) : M Str := do
  let address := TLS.virt_addr s.address
  let from_ := address - address % 16
  let to := env.align_up (address + s.size) 16
  let st ← dumpLoop env resolve symbols s bytes (if from_ < to then (to - from_).toNat else 0) from_ { track := { rels := s.rels } }
  return st.out

/-- analyze_x86.hpp:465-468: the global offset table. -/
def gotLine (s : Symbol) (got : Addr) : Str := if s.address = got then "  [the global offset table]\n".toList else []

/-- analyze_x86.hpp:737-740: the content of a symbol that is not executable. -/
def dataText (env : Env) (resolve : Bool) (symbols : SymTree) (s : Symbol) (bytes : List (BitVec 8)) : M Str :=
  if s.size > 0 then dumpData env resolve symbols s bytes else .ok []

/-- analyze_x86.hpp:428-441 `hash_internal_debug_strdup`: the debug text of a symbol that is not executable. -/
def dataDebug (env : Env) (resolve : Bool) (symbols : SymTree) (got : Addr) (s : Symbol) (bytes : List (BitVec 8)) : M (Option Str) := do
  let d ← dataText env resolve symbols s bytes
  let t := gotLine s got ++ d
  return if t = [] then none else some t

end Bean

import Verif.Model.HashInternal
/-
Identifiers of positions inside of functions (src/analyze_x86.hpp:941-1068).

An iterator that is incremented at the end of a set is assumed to stay at the end (the loop in line 954 increments it
once more after it has reached the end, line 1066).
-/
namespace Bean

/-- analyze_x86.hpp:946-950: the addresses a relocation contributes. -/
def targetsOf (rel : Rel) : List Addr :=
  (if rel.instruction_access &&& ACCESSFLAG_LOCAL ≠ 0 then [rel.offset - rel.instruction_offset.setWidth 64] else []) ++
    [rel.target]

/-- analyze_x86.hpp:942-950: `rel_targets`. -/
def relTargets (symbols : SymTree) : List Addr :=
  Tree.ofList (symbols.flatMap (fun s => s.rels.flatMap targetsOf))

/-- analyze_x86.hpp:1005-1029: one operand. -/
def offsetOperand (branch : Bool) : Operand → List (BitVec 8)
  | .reg r => le32 r
  | .imm v _ => if branch then [] else le64 v
  | .mem segment base index scale disp _ =>
    if base ≠ X86_REG_RIP then le32 segment ++ le32 base ++ le32 index ++ le32 scale ++ le64 disp else []
  | .other => []

/-- analyze_x86.hpp:1034-1049: one relocation in the instruction. -/
def offsetRel (env : Env) (symbols : SymTree) (sym : Symbol) (rel : Rel) : M (List (BitVec 8)) :=
  if rel.target = 0 then
    .ok ((match rel.name with
      | some n => if n = "" then [] else env.push_str n
      | none => []) ++ le64 rel.addend)
  else if rel.target ≥ sym.address ∧ rel.target < sym.address + sym.size then
    .ok (le32 0x10ca1 ++ le64 (rel.target - sym.address))
  else
    match Tree.floor symbols rel.target with
    | some y => .ok (le64 y.id.internal ++ le64 (rel.target - y.address))
    | none => do
      massert env.build false
      return le64 rel.target

/-- Variables of the loop in analyze_x86.hpp:980-1063: `next_offset`, `sym->offset_ids`, the bytes added to `id_offset`
and `next_rel`. -/
structure OffLoop where
  todo : List Addr
  ids : List (Addr × BitVec 64)
  hashed : List (BitVec 8) := []
  rels : List Rel
deriving DecidableEq, Repr

/-- analyze_x86.hpp:985-1058: an instruction that is not a NOP. -/
def offsetInsn (env : Env) (symbols : SymTree) (sym : Symbol) (l : OffLoop) (s : Step) : M OffLoop := do
  let ids := (l.todo.takeWhile (fun t => decide (t < s.address))).foldl
    (fun m t => HMap.insert m (t - sym.address) (env.xxhash l.hashed)) l.ids
  let bytes ← (l.rels.takeWhile (fun r => decide (r.offset < s.address))).mapM (offsetRel env symbols sym)
  return {
    todo := l.todo.dropWhile (fun t => decide (t < s.address))
    ids := ids
    hashed := l.hashed ++ (insnHead s.insn ++ s.insn.ops.flatMap (offsetOperand (isBranch (env.kind s.insn.id))) ++
      bytes.flatten)
    rels := l.rels.dropWhile (fun r => decide (r.offset < s.address)) }

/-- analyze_x86.hpp:980-1063: the loop ends as soon as there are no further targets. -/
def offsetInsns (env : Env) (symbols : SymTree) (sym : Symbol) : List Step → OffLoop → M OffLoop
  | [], l => .ok l
  | s :: rest, l =>
    if env.kind s.insn.id = .nop then offsetInsns env symbols sym rest l
    else do
      let l ← offsetInsn env symbols sym l s
      if l.todo.isEmpty then .ok l else offsetInsns env symbols sym rest l

/-- analyze_x86.hpp:974-1063: a function. All bytes of the symbol are considered to be read. -/
def offsetSymbol (env : Env) (st : AState) (symbols : SymTree) (sym : Symbol) (todo : List Addr) : M OffLoop := do
  let sec ← mderef env.build (Tree.floor st.sections sym.address)
  let bytes ← readBytes sec.data (sym.address - sec.virt_addr) sym.size
  offsetInsns env symbols sym (disasm env sym.address bytes) { todo := todo, ids := sym.offset_ids, rels := sym.rels }

/-- analyze_x86.hpp:955-1066: one iteration for the target `t`; `rest` are the following ones. -/
def offsetBody (env : Env) (st : AState) (symbols : SymTree) (t : Addr) (rest : List Addr) : M (SymTree × List Addr) :=
  match Tree.floor symbols t with
  | none => .ok (symbols, rest)
  | some sym =>
    let todo := if t = sym.address then rest else t :: rest
    match todo with
    | [] => .ok (symbols, [])
    | n :: later =>
      if t = sym.address ∧ n ≥ sym.address + sym.size then .ok (symbols, n :: later)
      else if !sym.sec.executable then .ok (symbols, later)
      else do
        let l ← offsetSymbol env st symbols sym (n :: later)
        return (Tree.modify symbols sym.address (fun y => { y with offset_ids := l.ids }), l.todo.tail)

/-- analyze_x86.hpp:953-1067: each iteration removes at least one target, so that their number bounds the iterations
(`fuel`). -/
def offsetLoop (env : Env) (st : AState) : Nat → SymTree → List Addr → M SymTree
  | _, symbols, [] => .ok symbols
  | 0, symbols, _ :: _ => .ok symbols
  | fuel + 1, symbols, t :: rest => do
    let r ← offsetBody env st symbols t rest
    offsetLoop env st fuel r.1 r.2

/-- analyze_x86.hpp:941-1068 `hash_function_offsets` -/
def functionOffsets (env : Env) (st : AState) : M AState := do
  let targets := relTargets st.symbols
  let symbols ← offsetLoop env st targets.length st.symbols targets
  return { st with symbols := symbols }

end Bean

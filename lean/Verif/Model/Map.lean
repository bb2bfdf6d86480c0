import Verif.Model.Diff
/-
Mapping of addresses of one binary to another one (src/bean.cpp:127-270).
-/
namespace Bean

/-- `TreeMap<uintptr_t, uintptr_t>` is a tree of pairs ordered by the first component. -/
instance : Keyed (Addr × Addr) := ⟨Prod.fst⟩

/-- bean.cpp:129-133: the local variables `mapping` and `skip`. -/
structure MapState where
  mapping : List (Addr × Addr) := []
  skip : List Addr := []
deriving DecidableEq, Repr

/-- bean.cpp:135-158, lambda `insert_mapping` (its return value is not used by any caller). -/
def insertMapping (this other : SymTree) (st : MapState) (from_ to : Addr) : MapState :=
  match Tree.find st.mapping from_ with
  | some m => if m.2 ≠ to then { st with skip := HSet.add st.skip to } else st
  | none =>
    match Tree.floor this from_, Tree.floor other to with
    | some from_sym, some to_sym =>
      if !from_sym.sec.same to_sym.sec then st
      else if from_sym.type != .unknown && to_sym.type != .unknown && from_sym.type != to_sym.type then st
      else { st with mapping := (Tree.insert st.mapping (from_, to)).1 }
    | _, _ => st

/-- bean.cpp:166: the condition for a pair of relocations. -/
def relsAgree (from_ to : Symbol) (from_rel to_rel : Rel) : Bool :=
  !from_rel.undefined && !to_rel.undefined
    && (from_rel.offset - from_.address) == (to_rel.offset - to.address)
    && from_rel.type == to_rel.type && from_rel.addend == to_rel.addend

/-- bean.cpp:160-171, lambda `process_relocations`. The assertion in line 165 holds since the number of
relocations is the same. -/
def processRelocations (this other : SymTree) (st : MapState) (from_ to : Symbol) : MapState :=
  if !from_.rels.isEmpty && from_.rels.length == to.rels.length then
    (from_.rels.zip to.rels).foldl
      (fun st p => if relsAgree from_ to p.1 p.2 then insertMapping this other st p.1.target p.2.target else st) st
  else st

/-- Key of a writeable symbol: section name and offset in the section (bean.cpp:184, 195). -/
def varKey (sym : Symbol) : Option String × Addr := (sym.sec.name, TLS.virt_addr sym.address - sym.sec.address)

/-- bean.cpp:174-177: the local variables `entries`, `other_entry` and `vars`. -/
structure Scan where
  entries : Nat := 0
  other_entry : Option Symbol := none
  vars : List ((Option String × Addr) × Symbol) := []

/-- bean.cpp:178-185: body of the loop over the symbols of the other binary. -/
def scanOther (b : Build) (sc : Scan) (sym : Symbol) : M Scan :=
  if sym.has SYMBOL_ENTRY then .ok { sc with other_entry := some sym, entries := sc.entries + 1 }
  else if sym.sec.writeable then do
    massert b (decide (TLS.virt_addr sym.address ≥ sym.sec.address))
    return { sc with vars := HMap.insert sc.vars (varKey sym) sym }
  else .ok sc

/-- bean.cpp:130-133 and 188: mapping, `internal_id` and `skip_internal_id`. -/
structure EntryState where
  st : MapState := {}
  internal_id : List (BitVec 64) := []
  skip_internal_id : List (BitVec 64) := []

/-- bean.cpp:189-202: body of the loop over the symbols of this binary. -/
def matchEntryVars (b : Build) (this other : SymTree) (sc : Scan) (es : EntryState) (sym : Symbol) : M EntryState := do
  let ins := HSet.insert es.internal_id sym.id.internal
  let es := { es with
    internal_id := ins.1
    skip_internal_id := if ins.2 then es.skip_internal_id else HSet.add es.skip_internal_id sym.id.internal }
  match (if sym.has SYMBOL_ENTRY then sc.other_entry else none) with
  | some other_entry => do
    massert b (other_entry.type == sym.type && other_entry.bind == sym.bind && other_entry.sec.same sym.sec)
    return { es with st := insertMapping this other es.st sym.address other_entry.address }
  | none =>
    if sym.sec.writeable then
      match HMap.find sc.vars (varKey sym) with
      | some var =>
        if sym.address % 0x1000 == var.address % 0x1000 && sym.size == var.size then
          return { es with st := insertMapping this other es.st sym.address var.address }
        else return es
      | none => return es
    else return es

/-- `String::len(sym.name) > 0`; a null name has length 0. -/
def hasName (sym : Symbol) : Bool :=
  match sym.name with
  | some n => n != ""
  | none => false

/-- bean.cpp:208-212: index of the named symbols of the other binary. -/
def nameIndex (other : SymTree) : List (Option String × Symbol) :=
  other.foldl (fun m sym => if hasName sym then HMap.insert m sym.name sym else m) []

/-- bean.cpp:214-222: body of the loop for named symbols. -/
def matchName (this other : SymTree) (names : List (Option String × Symbol)) (st : MapState) (sym : Symbol) : MapState :=
  if (Tree.find st.mapping sym.address).isSome then st
  else if !hasName sym then st
  else match HMap.find names sym.name with
    | some o =>
      if o.type == sym.type && o.bind == sym.bind && o.sec.same sym.sec then
        insertMapping this other st sym.address o.address
      else st
    | none => st

/-- bean.cpp:228-233: body of the loop for symbols of equal identity. -/
def matchFull (h : BitVec 64 → BitVec 32) (this other : SymTree) (st : MapState) (sym : Symbol) : MapState :=
  match SymHash.find (extCmp h) (SymHash.ofTree (extCmp h) other) sym with
  | some o => processRelocations this other (insertMapping this other st sym.address o.address) sym o
  | none => st

/-- bean.cpp:239-243: body of the loop for symbols with equal internal ID. -/
def matchInternal (h : BitVec 64 → BitVec 32) (this other : SymTree) (skip_internal_id : List (BitVec 64))
    (st : MapState) (sym : Symbol) : MapState :=
  if sym.id.internal ∈ skip_internal_id then st
  else match SymHash.find (intCmp h) (SymHash.ofTree (intCmp h) other) sym with
    | some o => processRelocations this other st sym o
    | none => st

/-- bean.cpp:254-260: body of the loop over the relocations of a mapped function. -/
def matchLocalRel (this other : SymTree) (sym other_sym : Symbol) (st : MapState) (rel : Rel) : MapState :=
  if (rel.instruction_access &&& ACCESSFLAG_BRANCH) != 0 && (rel.instruction_access &&& ACCESSFLAG_LOCAL) != 0 then
    let offset := rel.target - sym.address
    match HMap.find sym.offset_ids offset, HMap.find other_sym.offset_ids offset with
    | some a, some b =>
      if a == b then insertMapping this other st rel.target (other_sym.address + offset) else st
    | _, _ => st
  else st

/-- bean.cpp:248-261: body of the loop for branches inside of mapped functions. -/
def matchLocal (this other : SymTree) (skip_internal_id : List (BitVec 64)) (st : MapState) (sym : Symbol) : MapState :=
  if sym.id.internal ∈ skip_internal_id then st
  else match Tree.find st.mapping sym.address with
    | none => st
    | some m =>
      match Tree.find other m.2 with
      | none => st
      | some o => sym.rels.foldl (matchLocalRel this other sym o) st

/-- bean.cpp:173-262: everything up to the cleanup. -/
def mapGather (b : Build) (h : BitVec 64 → BitVec 32) (this other : SymTree) (use_symbol_names : Bool) : M MapState := do
  let sc ← other.foldlM (scanOther b) {}
  massert b (decide (sc.entries ≤ 1))
  let es ← this.foldlM (matchEntryVars b this other sc) {}
  let st := es.st
  let st := if use_symbol_names then this.foldl (matchName this other (nameIndex other)) st else st
  let st := this.foldl (matchFull h this other) st
  let st := this.foldl (matchInternal h this other es.skip_internal_id) st
  return this.foldl (matchLocal this other es.skip_internal_id) st

/-- bean.cpp:265-267: cleanup. -/
def cleanup (st : MapState) : List (Addr × Addr) := st.skip.foldl Tree.erase st.mapping

/-- bean.cpp:127-270 `Bean::map`. -/
def map (b : Build) (h : BitVec 64 → BitVec 32) (this other : SymTree) (use_symbol_names : Bool) :
    M (List (Addr × Addr)) := do
  let st ← mapGather b h this other use_symbol_names
  return cleanup st

end Bean

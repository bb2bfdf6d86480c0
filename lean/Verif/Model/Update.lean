import Verif.Model.Map
/-
Live update of a binary (include/bean/update.hpp).

The three callbacks are template parameters that can be absent. Their answers are arbitrary and may depend on
everything that happened before, i.e. on the list of earlier events. `Site` is a ghost tag telling which statement
caused an event; it is not visible to the callbacks.
-/
namespace Bean

/-- Reasons given to `SKIPMSG` (update.hpp:105, 110, 113). -/
inductive Reason where
  | differentOffsetId | differentInternalId | noTarget
deriving DecidableEq, Repr

/-- Ghost: the symbol, or symbol and relocation, an event is about. -/
inductive Site where
  | function (sym : Symbol)
  | relocation (sym : Symbol) (rel : Rel)
deriving DecidableEq, Repr

/-- Calls of the callbacks (update.hpp:25), with their answer. -/
inductive Event where
  | redirect (site : Site) (from_ to size : Addr) (answer : Bool)
  | relocate (site : Site) (rel : Rel) (to : Addr) (target : Symbol) (answer : Bool)
  | skipmsg (site : Site) (from_ to : Addr) (reason : Reason)
deriving DecidableEq, Repr

/-- The callbacks. -/
structure Callbacks where
  redirect : Option (List Event → Addr → Addr → Addr → Bool)
  relocate : Option (List Event → Rel → Addr → Symbol → Bool)
  skipmsg : Bool

/-- update.hpp:13-20: the flags as a record of booleans. -/
structure UpdateFlags where
  use_symbol_names : Bool := false
  only_executable : Bool := false
  only_branch_rels : Bool := false
  include_trampolines : Bool := false
  ignore_local_rels : Bool := false

/-- update.hpp:21: decoding of the flag word. -/
def UpdateFlags.ofWord (flags : BitVec 32) : UpdateFlags where
  use_symbol_names := flags.getLsbD 0
  only_executable := flags.getLsbD 1
  only_branch_rels := flags.getLsbD 2
  include_trampolines := flags.getLsbD 3
  ignore_local_rels := flags.getLsbD 4

/-- Events so far and the fault that ended the run, if any. -/
abbrev Trace := List Event × Option Fault

/-- Sequential composition: nothing happens after a fault. -/
def Trace.andThen (o : Trace) (f : List Event → Trace) : Trace :=
  match o.2 with
  | some _ => o
  | none => f o.1

/-- Loop over a list, each iteration sees the events so far. -/
def runAll {α : Type} (f : α → List Event → Trace) : List α → List Event → Trace
  | [], ev => (ev, none)
  | x :: xs, ev => (f x ev).andThen (runAll f xs)

/-- update.hpp:33 `is_func`. -/
def isFunc (s : Symbol) : Bool :=
  s.sec.executable && (s.type == .unknown || s.type == .func || s.type == .indirectFunc)

/-- Start of the instruction a relocation belongs to: `rel.offset - rel.instruction_offset`. -/
def relStart (rel : Rel) : Addr := rel.offset - rel.instruction_offset.setWidth 64

/-- Everything that is constant during a run of `process`. -/
structure Ctx where
  build : Build
  from_ : SymTree
  to : SymTree
  mapping : List (Addr × Addr)
  from_base : Addr
  to_base : Addr
  flags : UpdateFlags
  cb : Callbacks

/-- A call of `RELOCATE`: the answer and the events afterwards. -/
def callRelocate (c : Ctx) (site : Site) (rel : Rel) (to : Addr) (target : Symbol) (ev : List Event) :
    Bool × List Event :=
  match c.cb.relocate with
  | some f => let a := f ev rel to target; (a, ev ++ [.relocate site rel to target a])
  | none => (false, ev)

/-- A call of `REDIRECT`: the answer and the events afterwards. -/
def callRedirect (c : Ctx) (site : Site) (from_ to size : Addr) (ev : List Event) : Bool × List Event :=
  match c.cb.redirect with
  | some f => let a := f ev from_ to size; (a, ev ++ [.redirect site from_ to size a])
  | none => (false, ev)

/-- A call of `SKIPMSG`. -/
def callSkip (c : Ctx) (site : Site) (from_ to : Addr) (reason : Reason) (ev : List Event) : List Event :=
  if c.cb.skipmsg then ev ++ [.skipmsg site from_ to reason] else ev

/-- update.hpp:46-49 offset of the redirect (endbr has 4 bytes). -/
def redirectOffset (s : Symbol) : Addr := if s.has SYMBOL_USING_CET then 4 else 0

/-- update.hpp:53-62 size of the area available for the redirect. -/
def redirectSize (s : Symbol) : Addr :=
  let offset := redirectOffset s
  match s.rels.head? with
  | some rel =>
    let rel_start := relStart rel - s.address
    if rel_start ≤ offset then 0 else rel_start - offset
  | none => s.size - offset

/-- update.hpp:39-67: full redirect. Delivers `same_internal_id` in addition. -/
def fullRedirect (c : Ctx) (s : Symbol) (ev : List Event) : Bool × Trace :=
  match Tree.find c.mapping s.address with
  | none => (false, (ev, none))
  | some m =>
    match Tree.floor c.to m.2 with
    | none => (false, (ev, none))
    | some t =>
      let same := s.id.internal == t.id.internal
      if isFunc s && !s.has SYMBOL_TRAMPOLINE then
        match massert c.build (decide (redirectOffset s < s.size)) with
        | .error e => (same, (ev, some e))
        | .ok () =>
          (same, ((callRedirect c (.function s) (s.address + redirectOffset s + c.from_base) (t.address + c.to_base)
            (redirectSize s) ev).2, none))
      else (same, (ev, none))

/-- update.hpp:97-105: fallback for a branch inside of a function, redirect at the branch instruction. -/
def branchInsn (c : Ctx) (s : Symbol) (rel : Rel) (target : Addr) (t : Symbol) (ev : List Event) : List Event :=
  let site := Site.relocation s rel
  let inst_offset := rel.offset - s.address - rel.instruction_offset.setWidth 64
  let old_branch := HMap.find s.offset_ids inst_offset
  let new_branch := HMap.find t.offset_ids inst_offset
  let r := -- lines 101-102
    if old_branch.isSome && old_branch == new_branch then
      callRedirect c site (relStart rel + c.from_base) (t.address + inst_offset + c.to_base) 0 ev
    else (false, ev)
  if r.1 then r.2
  else callSkip c site (relStart rel + c.from_base) (target + c.to_base) .differentOffsetId r.2

/-- update.hpp:88-105: a branch inside of a function. -/
def localBranch (c : Ctx) (s : Symbol) (rel : Rel) (target : Addr) (t : Symbol) (ev : List Event) : List Event :=
  let site := Site.relocation s rel
  let old_target := HMap.find s.offset_ids (rel.target - s.address)
  let new_target := HMap.find t.offset_ids (target - t.address)
  let r := -- short-circuit evaluation of lines 92-94
    if old_target.isSome && old_target == new_target then
      let r := callRelocate c site rel (target + c.to_base) t ev
      if r.1 then r
      else if (rel.instruction_access &&& ACCESSFLAG_CONDITIONAL) == 0 then
        callRedirect c site (relStart rel + c.from_base) (target + c.to_base) 0 r.2
      else r
    else (false, ev)
  if r.1 then r.2 else branchInsn c s rel target t r.2

/-- update.hpp:72-115: one relocation of a symbol. -/
def processRel (c : Ctx) (s : Symbol) (same_internal_id : Bool) (rel : Rel) (ev : List Event) : Trace :=
  let site := Site.relocation s rel
  match Tree.find c.mapping rel.target with
  | none => (callSkip c site (rel.offset + c.from_base) 0 .noTarget ev, none)
  | some m =>
    match mderef c.build (Tree.floor c.to m.2) with
    | .error e => (ev, some e)
    | .ok t =>
      if c.flags.only_executable && !t.sec.executable then (ev, none)
      else
        let is_branch := (rel.instruction_access &&& ACCESSFLAG_BRANCH) != 0
        if c.flags.only_branch_rels && !is_branch then (ev, none)
        else
          let is_local := (rel.instruction_access &&& ACCESSFLAG_LOCAL) != 0
          if isFunc s && is_branch && is_local && !c.flags.ignore_local_rels then
            (localBranch c s rel m.2 t ev, none)
          else if same_internal_id then
            let r := callRelocate c site rel (m.2 + c.to_base) t ev
            if r.1 then (r.2, none)
            else ((callRedirect c site (relStart rel + c.from_base) (m.2 + c.to_base) 0 r.2).2, none)
          else (callSkip c site (rel.offset + c.from_base) (m.2 + c.to_base) .differentInternalId ev, none)

/-- update.hpp:32-116: one symbol. -/
def processSym (c : Ctx) (s : Symbol) (ev : List Event) : Trace :=
  if isFunc s && !c.flags.include_trampolines && s.has SYMBOL_TRAMPOLINE then (ev, none)
  else
    let r := fullRedirect c s ev
    r.2.andThen (runAll (processRel c s r.1) s.rels)

/-- update.hpp:25-117 `BeanUpdate::process` for a given mapping. -/
def processWith (c : Ctx) : Trace := runAll (processSym c) c.from_ []

/-- update.hpp:25-117 `BeanUpdate::process`. -/
def process (b : Build) (h : BitVec 64 → BitVec 32) (flags : BitVec 32) (cb : Callbacks) (from_ to : SymTree)
    (from_base to_base : Addr) : Trace :=
  let fl := UpdateFlags.ofWord flags
  match map b h from_ to fl.use_symbol_names with
  | .error e => ([], some e)
  | .ok mapping =>
    processWith { build := b, from_ := from_, to := to, mapping := mapping, from_base := from_base, to_base := to_base,
                  flags := fl, cb := cb }

end Bean

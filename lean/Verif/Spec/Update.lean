import Verif.Spec.Map
import Verif.Model.Update
/-
Specification vocabulary for the update process: which events may occur. `Event`, `Site` and `Callbacks` are the
interface of the process and taken from the model.
-/
namespace Bean.Spec

/-- A function symbol: executable and of type function, indirect function or unknown. -/
def IsFunction (s : Symbol) : Prop :=
  s.sec.executable = true ∧ (s.type = .unknown ∨ s.type = .func ∨ s.type = .indirectFunc)

/-- Bit 1 of the symbol flags marks trampolines (PLT, GOT). -/
def IsTrampoline (s : Symbol) : Prop := s.flags.getLsbD 1 = true

/-- Bit 2 of the symbol flags marks a leading `endbr` instruction of 4 bytes. -/
def endbrSize (s : Symbol) : Nat := if s.flags.getLsbD 2 = true then 4 else 0

/-- The symbol an event is about. -/
def siteSymbol : Site → Symbol
  | .function s => s
  | .relocation s _ => s

/-- Where an event comes from. -/
def siteOf : Event → Site
  | .redirect s _ _ _ _ => s
  | .relocate s _ _ _ _ => s
  | .skipmsg s _ _ _ => s

/-- Events that settle a relocation: an accepted change or a skip message. -/
def Final : Event → Prop
  | .redirect _ _ _ _ a => a = true
  | .relocate _ _ _ _ a => a = true
  | .skipmsg _ _ _ _ => True

/-- Events that may change the old binary. -/
def IsChange : Event → Prop
  | .skipmsg _ _ _ _ => False
  | _ => True

def IsRelocate : Event → Prop
  | .relocate _ _ _ _ _ => True
  | _ => False

instance : DecidablePred IsRelocate := fun e => by cases e <;> unfold IsRelocate <;> infer_instance

/-- Nothing follows after an accepted change or a skip message. -/
def StopsWhenSettled : List Event → Prop
  | [] => True
  | e :: l => (Final e → l = []) ∧ StopsWhenSettled l

/-- Only the first event of the list can be a call of RELOCATE. -/
def RelocateOnlyFirst : List Event → Prop
  | [] => True
  | _ :: l => ∀ e ∈ l, ¬ IsRelocate e

/-- Address of the instruction a relocation belongs to, as a number. -/
def insnStart (r : Rel) : Int := (r.offset.toNat : Int) - r.instruction_offset.toNat

/-- The instructions with relocations lie in the symbol, in the order of their relocations. -/
def InsnsInside (s : Symbol) : Prop :=
  (∀ r ∈ s.rels, (s.address.toNat : Int) ≤ insnStart r ∧ insnStart r < (s.address.toNat : Int) + s.size.toNat)
    ∧ s.rels.Pairwise (fun a b => a.offset.toNat < b.offset.toNat ∧ insnStart a ≤ insnStart b)

/-- Relocations are in strictly ascending order of their offset. -/
def RelsOrdered (s : Symbol) : Prop := s.rels.Pairwise (fun a b => a.offset.toNat < b.offset.toNat)

/-- Target address of an event. -/
def targetOf : Event → Addr
  | .redirect _ _ t _ _ => t
  | .relocate _ _ t _ _ => t
  | .skipmsg _ _ t _ => t

/-- Branches inside of a function are treated by offset identities, unless this is switched off. -/
def LocalBranch (ignore : Bool) (s : Symbol) (r : Rel) : Prop :=
  IsFunction s ∧ r.instruction_access.getLsbD 2 = true ∧ r.instruction_access.getLsbD 4 = true ∧ ignore = false

/-- The code from offset `o` of `x` on and from offset `o'` of `y` on has the same identity. -/
def SameOffsetId (x y : Symbol) (o o' : Addr) : Prop :=
  ∃ v, x.offset_ids.lookup o = some v ∧ y.offset_ids.lookup o' = some v

/-- The counterpart of a symbol has the same internal identity. -/
def SameCounterpart (m : List (Addr × Addr)) (to : List Symbol) (s : Symbol) : Prop :=
  ∃ v y, (s.address, v) ∈ m ∧ Closest to v y ∧ s.id.internal = y.id.internal

/-- Why the change `e` of relocation `r` in `s` is fine: its target is the mapped target `v` of the relocation in
unchanged code, or the corresponding branch instruction in the new symbol. -/
def ChangeReason (ignore : Bool) (m : List (Addr × Addr)) (to : List Symbol) (tb : Addr) (s : Symbol) (r : Rel)
    (e : Event) : Prop :=
  ∃ v y, (r.target, v) ∈ m ∧ Closest to v y ∧
    ((targetOf e = v + tb ∧ ((LocalBranch ignore s r ∧ SameOffsetId s y (r.target - s.address) (v - y.address))
        ∨ (¬ LocalBranch ignore s r ∧ SameCounterpart m to s)))
      ∨ (¬ IsRelocate e ∧ LocalBranch ignore s r ∧
        let o := r.offset - r.instruction_offset.setWidth 64 - s.address
        targetOf e = y.address + o + tb ∧ SameOffsetId s y o o))

/-- Change of the load addresses of an event: `d` for addresses in the old, `e` for addresses in the new binary.
The message "no target found" has no target address. -/
def shiftEvent (d e : Addr) : Event → Event
  | .redirect s f t sz a => .redirect s (f + d) (t + e) sz a
  | .relocate s r t sym a => .relocate s r (t + e) sym a
  | .skipmsg s f t .noTarget => .skipmsg s (f + d) t .noTarget
  | .skipmsg s f t reason => .skipmsg s (f + d) (t + e) reason

/-- `cb'` gives at shifted addresses and after a shifted history the answers of `cb`. -/
structure ShiftedCallbacks (d e : Addr) (cb cb' : Callbacks) : Prop where
  redirect : match cb.redirect, cb'.redirect with
    | some f, some g => ∀ ev a t s, g (ev.map (shiftEvent d e)) (a + d) (t + e) s = f ev a t s
    | none, none => True
    | _, _ => False
  relocate : match cb.relocate, cb'.relocate with
    | some f, some g => ∀ ev r t s, g (ev.map (shiftEvent d e)) r (t + e) s = f ev r t s
    | none, none => True
    | _, _ => False
  skipmsg : cb'.skipmsg = cb.skipmsg

end Bean.Spec

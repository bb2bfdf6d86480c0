import Verif.Model.Run
import Verif.Model.Update
/-
Results of an analysis without the parts of relocations that the constructors do not set (C47).
-/
namespace Bean.Spec
open Bean

/-- A relocation read from the file without the two members that describe the instruction; the others are kept. -/
def clearRel (r : Rel) : Rel := if r.reconstructed then r else { r with instruction_offset := 0, instruction_access := 0 }

def clearSym (s : Symbol) : Symbol := { s with rels := s.rels.map clearRel }

/-- In addition without the identifiers of positions. -/
def clearIds (s : Symbol) : Symbol := { clearSym s with offset_ids := [] }

/-- The subject of an event without these members. -/
def plainSite : Site → Site
  | .function s => .function (clearSym s)
  | .relocation s rel => .relocation (clearSym s) (clearRel rel)

/-- An event of an update without these members, the place of a redirect at a relocation and the space for a redirect of a
function: both are calculated from the offset of an instruction. -/
def plainEvent : Event → Event
  | .redirect (.function s) from_ to _ answer => .redirect (plainSite (.function s)) from_ to 0 answer
  | .redirect (.relocation s rel) _ to size answer => .redirect (plainSite (.relocation s rel)) 0 to size answer
  | .relocate site rel to target answer => .relocate (plainSite site) (clearRel rel) to (clearSym target) answer
  | .skipmsg site from_ to reason => .skipmsg (plainSite site) from_ to reason

/-- Callbacks whose answers do not depend on these parts of their arguments and of the events before. -/
structure PlainCallbacks (cb : Callbacks) : Prop where
  redirect : ∀ f, cb.redirect = some f → ∀ ev ev' a a' to size size', ev.map plainEvent = ev'.map plainEvent →
    f ev a to size = f ev' a' to size'
  relocate : ∀ f, cb.relocate = some f → ∀ ev ev' rel rel' to t t', ev.map plainEvent = ev'.map plainEvent →
    clearRel rel = clearRel rel' → clearSym t = clearSym t' → f ev rel to t = f ev' rel' to t'

end Bean.Spec

import Verif.Spec.Update
import Verif.Lemmas.Map
/-
Lemmas about the update process.
-/
namespace Bean
open Spec

/-! ### Loops over traces -/

theorem Trace.andThen_none {ev : List Event} {f : List Event → Trace} : Trace.andThen (ev, none) f = f ev := rfl
theorem Trace.andThen_some {ev : List Event} {e : Fault} {f : List Event → Trace} :
    Trace.andThen (ev, some e) f = (ev, some e) := rfl

/-- Each iteration appends a segment with property `R x`. -/
theorem runAll_segments {α : Type} (f : α → List Event → Trace) (R : α → List Event → Prop)
    (hnil : ∀ x, R x [])
    (xs : List α) (hf : ∀ x ∈ xs, ∀ ev, ∃ new, (f x ev).1 = ev ++ new ∧ R x new) (ev : List Event) :
    ∃ segs : List (α × List Event), (runAll f xs ev).1 = ev ++ (segs.map (·.2)).flatten
      ∧ segs.map (·.1) = xs ∧ ∀ p ∈ segs, R p.1 p.2 := by
  induction xs generalizing ev with
  | nil => exact ⟨[], by simp [runAll]⟩
  | cons x xs ih =>
    obtain ⟨new, hnew, hR⟩ := hf x List.mem_cons_self ev
    unfold runAll
    cases hfx : f x ev with
    | mk ev' flt =>
      rw [hfx] at hnew
      simp only at hnew
      cases flt with
      | none =>
        rw [Trace.andThen_none]
        obtain ⟨segs, h1, h2, h3⟩ := ih (fun y hy => hf y (List.mem_cons_of_mem _ hy)) ev'
        subst hnew
        refine ⟨(x, new) :: segs, by simp [h1], by simp [h2], ?_⟩
        intro p hp
        rcases List.mem_cons.mp hp with rfl | hp
        · exact hR
        · exact h3 p hp
      | some e =>
        rw [Trace.andThen_some]
        refine ⟨(x, new) :: xs.map (fun y => (y, [])), ?_, ?_, ?_⟩
        · have : xs.map ((fun p : α × List Event => p.2) ∘ fun y => (y, [])) = xs.map (fun _ => []) := rfl
          simp [hnew, this]
        · have : xs.map ((fun p : α × List Event => p.1) ∘ fun y => (y, [])) = xs := List.map_id xs
          simp [this]
        intro p hp
        rcases List.mem_cons.mp hp with rfl | hp
        · exact hR
        · obtain ⟨y, _, rfl⟩ := List.mem_map.mp hp
          exact hnil y

theorem runAll_nofault {α : Type} (f : α → List Event → Trace) (xs : List α)
    (hf : ∀ x ∈ xs, ∀ ev, (f x ev).2 = none) (ev : List Event) : (runAll f xs ev).2 = none := by
  induction xs generalizing ev with
  | nil => rfl
  | cons x xs ih =>
    unfold runAll
    have := hf x List.mem_cons_self ev
    cases hfx : f x ev with
    | mk ev' flt =>
      rw [hfx] at this
      simp only at this
      subst this
      exact ih (fun y hy => hf y (List.mem_cons_of_mem _ hy)) ev'

/-- All events of a completed or aborted loop satisfy a predicate. -/
theorem runAll_forall {α : Type} (f : α → List Event → Trace) (Q : Event → Prop) (xs : List α)
    (hf : ∀ x ∈ xs, ∀ ev, (∀ e ∈ ev, Q e) → ∀ e ∈ (f x ev).1, Q e) (ev : List Event) (h0 : ∀ e ∈ ev, Q e) :
    ∀ e ∈ (runAll f xs ev).1, Q e := by
  induction xs generalizing ev with
  | nil => exact h0
  | cons x xs ih =>
    unfold runAll
    have := hf x List.mem_cons_self ev h0
    cases hfx : f x ev with
    | mk ev' flt =>
      rw [hfx] at this
      cases flt with
      | none => exact ih (fun y hy => hf y (List.mem_cons_of_mem _ hy)) ev' this
      | some e => exact this

/-! ### Callback calls -/

theorem callRelocate_eq (c : Ctx) (site : Site) (rel : Rel) (to : Addr) (t : Symbol) (ev : List Event) :
    (callRelocate c site rel to t ev = (false, ev) ∧ c.cb.relocate = none)
    ∨ ∃ a, callRelocate c site rel to t ev = (a, ev ++ [.relocate site rel to t a]) := by
  unfold callRelocate
  cases c.cb.relocate with
  | none => exact .inl ⟨rfl, rfl⟩
  | some f => exact .inr ⟨_, rfl⟩

theorem callRedirect_eq (c : Ctx) (site : Site) (f t sz : Addr) (ev : List Event) :
    (callRedirect c site f t sz ev = (false, ev) ∧ c.cb.redirect = none)
    ∨ ∃ a, callRedirect c site f t sz ev = (a, ev ++ [.redirect site f t sz a]) := by
  unfold callRedirect
  cases c.cb.redirect with
  | none => exact .inl ⟨rfl, rfl⟩
  | some g => exact .inr ⟨_, rfl⟩

theorem callSkip_eq (c : Ctx) (site : Site) (f t : Addr) (r : Reason) (ev : List Event) :
    callSkip c site f t r ev = ev ∨ callSkip c site f t r ev = ev ++ [.skipmsg site f t r] := by
  unfold callSkip
  cases c.cb.skipmsg
  · exact .inl rfl
  · exact .inr rfl

/-! ### What events can look like -/

/-- The mapped counterpart of the symbol has the same internal identity. -/
def SameCode (c : Ctx) (s : Symbol) : Prop :=
  ∃ m y, Tree.find c.mapping s.address = some m ∧ Tree.floor c.to m.2 = some y ∧ s.id.internal = y.id.internal

/-- Condition of update.hpp:88. -/
def isLocalBranch (c : Ctx) (s : Symbol) (r : Rel) : Bool :=
  isFunc s && (r.instruction_access &&& ACCESSFLAG_BRANCH) != 0 && (r.instruction_access &&& ACCESSFLAG_LOCAL) != 0
    && !c.flags.ignore_local_rels

/-- Equal offset identities at an offset of one symbol and an offset of another one. -/
def sameOffsetId (s y : Symbol) (o o' : Addr) : Prop :=
  (HMap.find s.offset_ids o).isSome = true ∧ HMap.find s.offset_ids o = HMap.find y.offset_ids o'

/-- Reason for changing the target of a relocation to address `v` in symbol `y`. -/
def TargetReason (c : Ctx) (s : Symbol) (r : Rel) (v : Addr) (y : Symbol) : Prop :=
  (isLocalBranch c s r = true ∧ sameOffsetId s y (r.target - s.address) (v - y.address))
    ∨ (isLocalBranch c s r = false ∧ SameCode c s)

/-- Description of all possible events in terms of the mapping. -/
def EventOK (c : Ctx) : Event → Prop
  | .redirect (.function s) f t sz _ => s ∈ c.from_ ∧ isFunc s = true ∧ s.has SYMBOL_TRAMPOLINE = false
      ∧ (c.build = .debug → redirectOffset s < s.size)
      ∧ ∃ m y, Tree.find c.mapping s.address = some m ∧ Tree.floor c.to m.2 = some y
        ∧ f = s.address + redirectOffset s + c.from_base ∧ t = y.address + c.to_base ∧ sz = redirectSize s
  | .redirect (.relocation s r) f t sz _ => s ∈ c.from_ ∧ r ∈ s.rels ∧ f = relStart r + c.from_base ∧ sz = 0
      ∧ ∃ m y, Tree.find c.mapping r.target = some m ∧ Tree.floor c.to m.2 = some y
        ∧ (c.flags.only_executable = true → y.sec.executable = true)
        ∧ (c.flags.only_branch_rels = true → ((r.instruction_access &&& ACCESSFLAG_BRANCH) != 0) = true)
        ∧ ((t = m.2 + c.to_base ∧ TargetReason c s r m.2 y
            ∧ (isLocalBranch c s r = true → ((r.instruction_access &&& ACCESSFLAG_CONDITIONAL) == 0) = true))
          ∨ (t = y.address + (relStart r - s.address) + c.to_base ∧ isLocalBranch c s r = true
            ∧ sameOffsetId s y (relStart r - s.address) (relStart r - s.address)))
  | .relocate (.function _) _ _ _ _ => False
  | .relocate (.relocation s r) r' t y _ => s ∈ c.from_ ∧ r ∈ s.rels ∧ r' = r
      ∧ ∃ m, Tree.find c.mapping r.target = some m ∧ Tree.floor c.to m.2 = some y ∧ t = m.2 + c.to_base
        ∧ TargetReason c s r m.2 y
        ∧ (c.flags.only_executable = true → y.sec.executable = true)
        ∧ (c.flags.only_branch_rels = true → ((r.instruction_access &&& ACCESSFLAG_BRANCH) != 0) = true)
  | .skipmsg (.function _) _ _ _ => False
  | .skipmsg (.relocation s r) _ t reason => s ∈ c.from_ ∧ r ∈ s.rels
      ∧ match Tree.find c.mapping r.target with
        | none => reason = .noTarget ∧ t = 0
        | some m => t = m.2 + c.to_base ∧ match reason with
          | .noTarget => False
          | .differentOffsetId => isLocalBranch c s r = true
          | .differentInternalId => isLocalBranch c s r = false ∧ ¬ SameCode c s

/-- Symbols whose events are suppressed. -/
def suppressed (c : Ctx) (s : Symbol) : Bool := isFunc s && !c.flags.include_trampolines && s.has SYMBOL_TRAMPOLINE

/-- Segment of events for one relocation. -/
structure RelSegment (c : Ctx) (s : Symbol) (rel : Rel) (new : List Event) : Prop where
  site : ∀ e ∈ new, siteOf e = .relocation s rel
  final : StopsWhenSettled new
  relocateFirst : RelocateOnlyFirst new
  ok : ∀ e ∈ new, EventOK c e

theorem RelSegment.nil (c : Ctx) (s : Symbol) (rel : Rel) : RelSegment c s rel [] :=
  ⟨by simp, trivial, trivial, by simp⟩

theorem instOffset_eq (s : Symbol) (rel : Rel) :
    rel.offset - s.address - rel.instruction_offset.setWidth 64 = relStart rel - s.address := by
  unfold relStart; bv_omega

/-- Only refused attempts so far. -/
structure Refused (c : Ctx) (s : Symbol) (rel : Rel) (pre : List Event) : Prop where
  all : ∀ e ∈ pre, siteOf e = .relocation s rel ∧ EventOK c e ∧ ¬ Final e
  first : RelocateOnlyFirst pre

theorem Refused.nil (c : Ctx) (s : Symbol) (rel : Rel) : Refused c s rel [] := ⟨by simp, trivial⟩

theorem Refused.seg {c : Ctx} {s : Symbol} {rel : Rel} {pre : List Event} (h : Refused c s rel pre) :
    RelSegment c s rel pre := by
  refine ⟨fun e he => (h.all e he).1, ?_, h.first, fun e he => (h.all e he).2.1⟩
  have := h.all
  clear h
  induction pre with
  | nil => trivial
  | cons e l ih =>
    exact ⟨fun hf => ((this e List.mem_cons_self).2.2 hf).elim, ih fun e he => this e (List.mem_cons_of_mem _ he)⟩

theorem relocateOnlyFirst_snoc {l : List Event} {e : Event} (h : RelocateOnlyFirst l) (he : l = [] ∨ ¬ IsRelocate e) :
    RelocateOnlyFirst (l ++ [e]) := by
  cases l with
  | nil => simp [RelocateOnlyFirst]
  | cons a l =>
    intro x hx
    rcases List.mem_append.mp hx with hx | hx
    · exact h x hx
    · simp only [List.mem_singleton] at hx
      subst hx
      exact he.resolve_left (by simp)

theorem Refused.snoc {c : Ctx} {s : Symbol} {rel : Rel} {pre : List Event} (h : Refused c s rel pre) {e : Event}
    (hsite : siteOf e = .relocation s rel) (hok : EventOK c e) (he : pre = [] ∨ ¬ IsRelocate e) :
    RelSegment c s rel (pre ++ [e]) ∧ (¬ Final e → Refused c s rel (pre ++ [e])) := by
  have hf := relocateOnlyFirst_snoc h.first he
  have hall : ∀ x ∈ pre ++ [e], siteOf x = .relocation s rel ∧ EventOK c x ∧ (¬ Final e → ¬ Final x) := by
    intro x hx
    rcases List.mem_append.mp hx with hx | hx
    · exact ⟨(h.all x hx).1, (h.all x hx).2.1, fun _ => (h.all x hx).2.2⟩
    · simp only [List.mem_singleton] at hx
      subst hx
      exact ⟨hsite, hok, id⟩
  refine ⟨⟨fun x hx => (hall x hx).1, ?_, hf, fun x hx => (hall x hx).2.1⟩,
    fun hn => ⟨fun x hx => ⟨(hall x hx).1, (hall x hx).2.1, (hall x hx).2.2 hn⟩, hf⟩⟩
  have := h.all
  clear h hf hall he
  induction pre with
  | nil => exact ⟨fun _ => rfl, trivial⟩
  | cons a l ih =>
    exact ⟨fun hf => ((this a List.mem_cons_self).2.2 hf).elim, ih fun e he => this e (List.mem_cons_of_mem _ he)⟩

theorem callRedirect_step {c : Ctx} {s : Symbol} {rel : Rel} {f t sz : Addr} (ev : List Event) {pre : List Event}
    (h : Refused c s rel pre) (hok : ∀ a, EventOK c (.redirect (.relocation s rel) f t sz a)) :
    ∃ a new, callRedirect c (.relocation s rel) f t sz (ev ++ pre) = (a, ev ++ new) ∧ RelSegment c s rel new
      ∧ (a = false → Refused c s rel new) := by
  rcases callRedirect_eq c (.relocation s rel) f t sz (ev ++ pre) with ⟨h', -⟩ | ⟨a, h'⟩
  · exact ⟨false, pre, h', h.seg, fun _ => h⟩
  · obtain ⟨h1, h2⟩ := h.snoc (e := .redirect (.relocation s rel) f t sz a) rfl (hok a) (.inr fun x => x)
    exact ⟨a, _, by rw [h', List.append_assoc], h1, fun ha => h2 (by simp [Final, ha])⟩

theorem callRelocate_step {c : Ctx} {s : Symbol} {rel : Rel} {t : Addr} {y : Symbol} (ev : List Event)
    (hok : ∀ a, EventOK c (.relocate (.relocation s rel) rel t y a)) :
    ∃ a new, callRelocate c (.relocation s rel) rel t y ev = (a, ev ++ new) ∧ RelSegment c s rel new
      ∧ (a = false → Refused c s rel new) := by
  rcases callRelocate_eq c (.relocation s rel) rel t y ev with ⟨h', -⟩ | ⟨a, h'⟩
  · exact ⟨false, [], by rw [h']; simp, .nil .., fun _ => .nil ..⟩
  · obtain ⟨h1, h2⟩ := (Refused.nil c s rel).snoc (e := .relocate (.relocation s rel) rel t y a) rfl (hok a) (.inl rfl)
    exact ⟨a, _, h', h1, fun ha => h2 (by simp [Final, ha])⟩

theorem callSkip_step {c : Ctx} {s : Symbol} {rel : Rel} {f t : Addr} {r : Reason} (ev : List Event) {pre : List Event}
    (h : Refused c s rel pre) (hok : EventOK c (.skipmsg (.relocation s rel) f t r)) :
    ∃ new, callSkip c (.relocation s rel) f t r (ev ++ pre) = ev ++ new ∧ RelSegment c s rel new := by
  rcases callSkip_eq c (.relocation s rel) f t r (ev ++ pre) with h' | h'
  · exact ⟨pre, h', h.seg⟩
  · exact ⟨_, by rw [h', List.append_assoc], (h.snoc (e := .skipmsg (.relocation s rel) f t r) rfl hok (.inr fun x => x)).1⟩

/-- What is known about a relocation whose target is mapped and which passes the filters. -/
structure RelCtx (c : Ctx) (s : Symbol) (rel : Rel) (m : Addr × Addr) (t : Symbol) : Prop where
  hs : s ∈ c.from_
  hr : rel ∈ s.rels
  hm : Tree.find c.mapping rel.target = some m
  ht : Tree.floor c.to m.2 = some t
  hx : c.flags.only_executable = true → t.sec.executable = true
  hb : c.flags.only_branch_rels = true → ((rel.instruction_access &&& ACCESSFLAG_BRANCH) != 0) = true

theorem RelCtx.relocate {c : Ctx} {s : Symbol} {rel : Rel} {m : Addr × Addr} {t : Symbol} (h : RelCtx c s rel m t)
    (hj : TargetReason c s rel m.2 t) (a : Bool) :
    EventOK c (.relocate (.relocation s rel) rel (m.2 + c.to_base) t a) :=
  ⟨h.hs, h.hr, rfl, m, h.hm, h.ht, rfl, hj, h.hx, h.hb⟩

theorem RelCtx.redirect {c : Ctx} {s : Symbol} {rel : Rel} {m : Addr × Addr} {t : Symbol} (h : RelCtx c s rel m t)
    (hj : TargetReason c s rel m.2 t)
    (hcond : isLocalBranch c s rel = true → ((rel.instruction_access &&& ACCESSFLAG_CONDITIONAL) == 0) = true) (a : Bool) :
    EventOK c (.redirect (.relocation s rel) (relStart rel + c.from_base) (m.2 + c.to_base) 0 a) :=
  ⟨h.hs, h.hr, rfl, rfl, m, t, h.hm, h.ht, h.hx, h.hb, .inl ⟨rfl, hj, hcond⟩⟩

theorem RelCtx.skip {c : Ctx} {s : Symbol} {rel : Rel} {m : Addr × Addr} {t : Symbol} (h : RelCtx c s rel m t)
    (f : Addr) (r : Reason) (hr : match r with
          | .noTarget => False
          | .differentOffsetId => isLocalBranch c s rel = true
          | .differentInternalId => isLocalBranch c s rel = false ∧ ¬ SameCode c s) :
    EventOK c (.skipmsg (.relocation s rel) f (m.2 + c.to_base) r) :=
  ⟨h.hs, h.hr, by rw [h.hm]; exact ⟨rfl, hr⟩⟩

theorem branchInsn_segment {c : Ctx} {s : Symbol} {rel : Rel} {m : Addr × Addr} {t : Symbol} (h : RelCtx c s rel m t)
    (hl : isLocalBranch c s rel = true) (ev : List Event) {pre : List Event} (hpre : Refused c s rel pre) :
    ∃ new, branchInsn c s rel m.2 t (ev ++ pre) = ev ++ new ∧ RelSegment c s rel new := by
  unfold branchInsn
  simp only [instOffset_eq]
  split
  · rename_i hid
    simp only [Bool.and_eq_true, beq_iff_eq] at hid
    have okB : ∀ a, EventOK c (.redirect (.relocation s rel) (relStart rel + c.from_base)
        (t.address + (relStart rel - s.address) + c.to_base) 0 a) :=
      fun a => ⟨h.hs, h.hr, rfl, rfl, m, t, h.hm, h.ht, h.hx, h.hb, .inr ⟨rfl, hl, hid⟩⟩
    obtain ⟨a, new, h1, h2, h3⟩ := callRedirect_step ev hpre okB
    simp only [h1]
    cases a with
    | true => exact ⟨new, rfl, h2⟩
    | false => exact callSkip_step ev (h3 rfl) (h.skip _ _ hl)
  · exact callSkip_step ev hpre (h.skip _ _ hl)

theorem localBranch_segment {c : Ctx} {s : Symbol} {rel : Rel} {m : Addr × Addr} {t : Symbol} (h : RelCtx c s rel m t)
    (hl : isLocalBranch c s rel = true) (ev : List Event) :
    ∃ new, localBranch c s rel m.2 t ev = ev ++ new ∧ RelSegment c s rel new := by
  unfold localBranch
  simp only
  split
  · rename_i hid
    simp only [Bool.and_eq_true, beq_iff_eq] at hid
    have hj : TargetReason c s rel m.2 t := .inl ⟨hl, hid⟩
    obtain ⟨a, new, h1, h2, h3⟩ := callRelocate_step ev (h.relocate hj)
    simp only [h1]
    cases a with
    | true => exact ⟨new, rfl, h2⟩
    | false =>
      simp only [Bool.false_eq_true, if_false]
      split
      · rename_i hcond
        obtain ⟨a', new', h1', h2', h3'⟩ := callRedirect_step ev (h3 rfl) (h.redirect hj fun _ => hcond)
        simp only [h1']
        cases a' with
        | true => exact ⟨new', rfl, h2'⟩
        | false => exact branchInsn_segment h hl ev (h3' rfl)
      · exact branchInsn_segment h hl ev (h3 rfl)
  · have := branchInsn_segment h hl ev (Refused.nil c s rel)
    simpa using this

theorem processRel_segment {c : Ctx} {s : Symbol} (hs : s ∈ c.from_) {rel : Rel} (hr : rel ∈ s.rels) {same : Bool}
    (hsame : same = true ↔ SameCode c s) (ev : List Event) : ∃ new, (processRel c s same rel ev).1 = ev ++ new ∧ RelSegment c s rel new := by
  unfold processRel
  simp only
  split
  · rename_i hm
    have := callSkip_step (f := rel.offset + c.from_base) (t := 0) (r := .noTarget) ev (Refused.nil c s rel)
      ⟨hs, hr, by rw [hm]; exact ⟨rfl, rfl⟩⟩
    simpa using this
  · rename_i m hm
    have hnil : ∃ new, ev = ev ++ new ∧ RelSegment c s rel new := ⟨[], by simp, .nil ..⟩
    split
    · exact hnil
    · rename_i t ht
      have ht' : Tree.floor c.to m.2 = some t := by
        unfold mderef at ht
        cases hf : Tree.floor c.to m.2 with
        | none => rw [hf] at ht; cases hb : c.build <;> rw [hb] at ht <;> cases ht
        | some y => rw [hf] at ht; simp at ht; rw [ht]
      split
      · exact hnil
      · rename_i hx
        split
        · exact hnil
        · rename_i hb
          have hc : RelCtx c s rel m t := ⟨hs, hr, hm, ht', by simpa using hx, by simpa using hb⟩
          change ∃ new, (if isLocalBranch c s rel = true then _ else _ : Trace).1 = _ ∧ _
          split
          · rename_i hl
            exact localBranch_segment hc hl ev
          · rename_i hl
            rw [Bool.not_eq_true] at hl
            split
            · rename_i hsm
              have hj : TargetReason c s rel m.2 t := .inr ⟨hl, hsame.mp hsm⟩
              obtain ⟨a, new, h1, h2, h3⟩ := callRelocate_step ev (hc.relocate hj)
              simp only [h1]
              cases a with
              | true => exact ⟨new, rfl, h2⟩
              | false =>
                obtain ⟨a', new', h1', h2', h3'⟩ := callRedirect_step ev (h3 rfl) (hc.redirect hj fun h => by rw [hl] at h; cases h)
                simp only [h1']
                exact ⟨new', rfl, h2'⟩
            · rename_i hsm
              have := callSkip_step (f := rel.offset + c.from_base) ev (Refused.nil c s rel)
                (hc.skip (rel.offset + c.from_base) .differentInternalId ⟨hl, fun h => hsm (hsame.mpr h)⟩)
              simpa using this

/-- Segment of events for one symbol: at most one redirect of the function, then the segments of its relocations. -/
structure SymSegment (c : Ctx) (s : Symbol) (new : List Event) : Prop where
  split : ∃ (hd : List Event) (segs : List (Rel × List Event)), new = hd ++ (segs.map (·.2)).flatten
    ∧ segs.map (·.1) = s.rels ∧ (∀ p ∈ segs, RelSegment c s p.1 p.2)
    ∧ (hd = [] ∨ ∃ f t sz a, hd = [.redirect (.function s) f t sz a] ∧ EventOK c (.redirect (.function s) f t sz a))
  suppressed : suppressed c s = true → new = []

theorem SymSegment.nil (c : Ctx) (s : Symbol) : SymSegment c s [] := by
  refine ⟨⟨[], s.rels.map fun r => (r, []), ?_, ?_, ?_, .inl rfl⟩, fun _ => rfl⟩
  · have : s.rels.map ((fun p : Rel × List Event => p.2) ∘ fun y => (y, [])) = s.rels.map (fun _ => []) := rfl
    simp [this]
  · have : s.rels.map ((fun p : Rel × List Event => p.1) ∘ fun y => (y, [])) = s.rels := List.map_id _
    simp [this]
  · intro p hp
    obtain ⟨r, -, rfl⟩ := List.mem_map.mp hp
    exact .nil ..

theorem fullRedirect_segment {c : Ctx} {s : Symbol} (hs : s ∈ c.from_) (ev : List Event) :
    ∃ hd, (fullRedirect c s ev).2.1 = ev ++ hd ∧
      (hd = [] ∨ ∃ f t sz a, hd = [.redirect (.function s) f t sz a] ∧ EventOK c (.redirect (.function s) f t sz a)) := by
  have hnil : ∃ hd, ev = ev ++ hd ∧ (hd = [] ∨ ∃ f t sz a, hd = [.redirect (.function s) f t sz a]
    ∧ EventOK c (.redirect (.function s) f t sz a)) := ⟨[], by simp, .inl rfl⟩
  unfold fullRedirect
  split
  · exact hnil
  · rename_i m hm
    split
    · exact hnil
    · rename_i y hy
      simp only
      split
      · rename_i hf
        simp only [Bool.and_eq_true, Bool.not_eq_true'] at hf
        split
        · exact hnil
        · rename_i hma
          rcases callRedirect_eq c (.function s) (s.address + redirectOffset s + c.from_base) (y.address + c.to_base)
            (redirectSize s) ev with ⟨h, -⟩ | ⟨a, h⟩
          · simp only [h]; exact hnil
          · simp only [h]
            refine ⟨_, rfl, .inr ⟨_, _, _, a, rfl, hs, hf.1, hf.2, ?_, m, y, hm, hy, rfl, rfl, rfl⟩⟩
            intro hb
            rw [hb] at hma
            cases hd : decide (redirectOffset s < s.size) with
            | true => exact of_decide_eq_true hd
            | false => rw [hd] at hma; simp [massert] at hma
      · exact hnil

theorem fullRedirect_same (c : Ctx) (s : Symbol) (ev : List Event) :
    (fullRedirect c s ev).1 = true ↔ SameCode c s := by
  unfold fullRedirect SameCode
  split
  · rename_i h; simp [h]
  · rename_i m h
    split
    · rename_i h'; simp [h, h']
    · rename_i y h'
      have : ∀ tr, ((s.id.internal == y.id.internal, tr) : Bool × Trace).1 = true ↔ ∃ m' y', some m = some m'
          ∧ Tree.floor c.to m'.2 = some y' ∧ s.id.internal = y'.id.internal := by
        intro tr
        constructor
        · intro he
          exact ⟨m, y, rfl, h', by simpa using he⟩
        · rintro ⟨m', y', e1, e2, e3⟩
          cases e1
          rw [h'] at e2
          cases e2
          simpa using e3
      rw [h]
      split
      · split <;> exact this _
      · exact this _

theorem processSym_segment {c : Ctx} {s : Symbol} (hs : s ∈ c.from_) (ev : List Event) :
    ∃ new, (processSym c s ev).1 = ev ++ new ∧ SymSegment c s new := by
  unfold processSym
  split
  · exact ⟨[], by simp, .nil ..⟩
  · rename_i hsup
    have hsup' : ¬ suppressed c s = true := hsup
    obtain ⟨hd, h1, h2⟩ := fullRedirect_segment hs ev
    simp only
    cases hfr : (fullRedirect c s ev).2 with
    | mk ev' flt =>
      rw [hfr] at h1
      simp only at h1
      subst h1
      cases flt with
      | some e =>
        rw [Trace.andThen_some]
        obtain ⟨⟨hd0, segs, e1, e2, e3, e4⟩, -⟩ := SymSegment.nil c s
        have e0 : (segs.map (·.2)).flatten = [] := (List.append_eq_nil_iff.mp e1.symm).2
        exact ⟨hd, rfl, ⟨hd, segs, by rw [e0, List.append_nil], e2, e3, h2⟩, fun h => (hsup' h).elim⟩
      | none =>
        rw [Trace.andThen_none]
        obtain ⟨segs, e1, e2, e3⟩ := runAll_segments (processRel c s (fullRedirect c s ev).1) (RelSegment c s)
          (RelSegment.nil c s) s.rels (fun r hr ev => processRel_segment hs hr (fullRedirect_same c s _) ev) (ev ++ hd)
        exact ⟨hd ++ (segs.map (·.2)).flatten, by rw [e1, List.append_assoc], ⟨hd, segs, rfl, e2, e3, h2⟩,
          fun h => (hsup' h).elim⟩

theorem processWith_segments (c : Ctx) : ∃ segs : List (Symbol × List Event),
    (processWith c).1 = (segs.map (·.2)).flatten ∧ segs.map (·.1) = c.from_ ∧ ∀ p ∈ segs, SymSegment c p.1 p.2 := by
  obtain ⟨segs, h1, h2, h3⟩ := runAll_segments (processSym c) (SymSegment c) (SymSegment.nil c) c.from_
    (fun s hs ev => processSym_segment hs ev) []
  exact ⟨segs, by unfold processWith; rw [h1, List.nil_append], h2, h3⟩

theorem SymSegment.ok {c : Ctx} {s : Symbol} {new : List Event} (h : SymSegment c s new) :
    ∀ e ∈ new, EventOK c e ∧ siteSymbol (siteOf e) = s := by
  obtain ⟨⟨hd, segs, rfl, h2, h3, h4⟩, -⟩ := h
  intro e he
  rcases List.mem_append.mp he with he | he
  · rcases h4 with rfl | ⟨f, t, sz, a, rfl, hok⟩
    · simp at he
    · simp only [List.mem_singleton] at he
      subst he
      exact ⟨hok, rfl⟩
  · obtain ⟨l, hl, he⟩ := List.mem_flatten.mp he
    obtain ⟨p, hp, rfl⟩ := List.mem_map.mp hl
    exact ⟨(h3 p hp).ok e he, by rw [(h3 p hp).site e he]; rfl⟩

theorem processWith_ok (c : Ctx) : ∀ e ∈ (processWith c).1, EventOK c e ∧ suppressed c (siteSymbol (siteOf e)) = false := by
  obtain ⟨segs, h1, h2, h3⟩ := processWith_segments c
  intro e he
  rw [h1] at he
  obtain ⟨l, hl, he⟩ := List.mem_flatten.mp he
  obtain ⟨p, hp, rfl⟩ := List.mem_map.mp hl
  obtain ⟨ho, hs⟩ := (h3 p hp).ok e he
  refine ⟨ho, ?_⟩
  rw [hs]
  cases hsup : Bean.suppressed c p.1 with
  | false => rfl
  | true => rw [(h3 p hp).suppressed hsup] at he; simp at he

/-- The segment of a key in a list of tagged segments. -/
theorem filter_segments {α : Type} (segs : List (α × List Event)) (hnd : (segs.map (·.1)).Nodup) (p : Event → Bool)
    (k : α) (hp : ∀ q ∈ segs, q.1 ≠ k → q.2.filter p = []) :
    (segs.map (·.2)).flatten.filter p = [] ∨ ∃ l, (k, l) ∈ segs ∧ (segs.map (·.2)).flatten.filter p = l.filter p := by
  induction segs with
  | nil => exact .inl rfl
  | cons q segs ih =>
    simp only [List.map_cons, List.nodup_cons] at hnd
    simp only [List.map_cons, List.flatten_cons, List.filter_append]
    by_cases hq : q.1 = k
    · right
      refine ⟨q.2, by rw [← hq]; exact List.mem_cons_self, ?_⟩
      have : (segs.map (·.2)).flatten.filter p = [] := by
        rw [List.filter_eq_nil_iff]
        intro e he
        obtain ⟨l, hl, he⟩ := List.mem_flatten.mp he
        obtain ⟨q', hq', rfl⟩ := List.mem_map.mp hl
        have hne : q'.1 ≠ k := by
          intro h
          exact hnd.1 (List.mem_map.mpr ⟨q', hq', h.trans hq.symm⟩)
        exact List.filter_eq_nil_iff.mp (hp q' (List.mem_cons_of_mem _ hq') hne) e he
      rw [this, List.append_nil]
    · rw [hp q List.mem_cons_self hq, List.nil_append]
      rcases ih hnd.2 (fun q hq => hp q (List.mem_cons_of_mem _ hq)) with h | ⟨l, h1, h2⟩
      · exact .inl h
      · exact .inr ⟨l, List.mem_cons_of_mem _ h1, h2⟩

/-- The events of one relocation. -/
theorem processWith_rel (c : Ctx) (hnd : c.from_.Nodup) (s : Symbol) (hrel : s.rels.Nodup) (r : Rel) :
    RelSegment c s r ((processWith c).1.filter fun e => decide (siteOf e = .relocation s r)) := by
  obtain ⟨segs, h1, h2, h3⟩ := processWith_segments c
  rw [h1]
  rcases filter_segments segs (by rw [h2]; exact hnd) (fun e => decide (siteOf e = .relocation s r)) s (by
    intro q hq hne
    rw [List.filter_eq_nil_iff]
    intro e he hd
    have := ((h3 q hq).ok e he).2
    rw [of_decide_eq_true hd] at this
    exact hne this.symm) with h | ⟨l, hl, h⟩
  · rw [h]; exact .nil ..
  · rw [h]
    obtain ⟨⟨hd, rsegs, e1, e2, e3, e4⟩, -⟩ := h3 _ hl
    simp only at e1 e2 e3 e4
    rw [e1]
    have hhd : hd.filter (fun e => decide (siteOf e = .relocation s r)) = [] := by
      rcases e4 with rfl | ⟨f, t, sz, a, rfl, -⟩
      · rfl
      · simp [siteOf]
    rw [List.filter_append, hhd, List.nil_append]
    rcases filter_segments rsegs (by rw [e2]; exact hrel) (fun e => decide (siteOf e = .relocation s r)) r (by
      intro q hq hne
      rw [List.filter_eq_nil_iff]
      intro e he hd
      have := (e3 q hq).site e he
      rw [of_decide_eq_true hd] at this
      exact hne (by simpa using this.symm)) with h | ⟨l, hl, h⟩
    · rw [h]; exact .nil ..
    · rw [h]
      have := e3 _ hl
      rw [List.filter_eq_self.mpr fun e he => decide_eq_true (this.site e he)]
      exact this

/-! ### Completed runs -/

theorem runAll_segments_ok {α : Type} (f : α → List Event → Trace) (R : α → List Event → Prop)
    (xs : List α) (hf : ∀ x ∈ xs, ∀ ev, (f x ev).2 = none → ∃ new, (f x ev).1 = ev ++ new ∧ R x new) (ev : List Event)
    (hok : (runAll f xs ev).2 = none) :
    ∃ segs : List (α × List Event), (runAll f xs ev).1 = ev ++ (segs.map (·.2)).flatten
      ∧ segs.map (·.1) = xs ∧ ∀ p ∈ segs, R p.1 p.2 := by
  induction xs generalizing ev with
  | nil => exact ⟨[], by simp [runAll]⟩
  | cons x xs ih =>
    unfold runAll at hok ⊢
    have hf0 := hf x List.mem_cons_self ev
    cases hfx : f x ev with
    | mk ev' flt =>
      rw [hfx] at hok hf0
      cases flt with
      | none =>
        obtain ⟨new, hnew, hR⟩ := hf0 rfl
        simp only at hnew
        rw [Trace.andThen_none] at hok ⊢
        obtain ⟨segs, h1, h2, h3⟩ := ih (fun y hy => hf y (List.mem_cons_of_mem _ hy)) ev' hok
        subst hnew
        refine ⟨(x, new) :: segs, by simp [h1], by simp [h2], ?_⟩
        intro p hp
        rcases List.mem_cons.mp hp with rfl | hp
        · exact hR
        · exact h3 p hp
      | some e => rw [Trace.andThen_some] at hok; simp at hok

theorem filter_segments_mem {α : Type} (segs : List (α × List Event)) (hnd : (segs.map (·.1)).Nodup) (p : Event → Bool)
    (k : α) (hk : k ∈ segs.map (·.1)) (hp : ∀ q ∈ segs, q.1 ≠ k → q.2.filter p = []) :
    ∃ l, (k, l) ∈ segs ∧ (segs.map (·.2)).flatten.filter p = l.filter p := by
  rcases filter_segments segs hnd p k hp with h | h
  · obtain ⟨q, hq, rfl⟩ := List.mem_map.mp hk
    refine ⟨q.2, hq, ?_⟩
    rw [h, eq_comm, List.filter_eq_nil_iff]
    intro e he
    exact List.filter_eq_nil_iff.mp h e (List.mem_flatten.mpr ⟨q.2, List.mem_map.mpr ⟨q, hq, rfl⟩, he⟩)
  · exact h

/-- The events of one symbol in a completed run. -/
def SymRun (c : Ctx) (s : Symbol) (new : List Event) : Prop :=
  (suppressed c s = true ∧ new = []) ∨ (suppressed c s = false ∧ ∃ (ev hd : List Event) (segs : List (Rel × List Event)),
    (fullRedirect c s ev).2 = (ev ++ hd, none)
    ∧ (hd = [] ∨ ∃ f t sz a, hd = [.redirect (.function s) f t sz a])
    ∧ new = hd ++ (segs.map (·.2)).flatten ∧ segs.map (·.1) = s.rels
    ∧ ∀ p ∈ segs, RelSegment c s p.1 p.2 ∧ ∃ ev same, processRel c s same p.1 ev = (ev ++ p.2, none))

theorem processWith_run (c : Ctx) (hok : (processWith c).2 = none) : ∃ segs : List (Symbol × List Event),
    (processWith c).1 = (segs.map (·.2)).flatten ∧ segs.map (·.1) = c.from_
      ∧ ∀ p ∈ segs, SymSegment c p.1 p.2 ∧ SymRun c p.1 p.2 := by
  obtain ⟨segs, h1, h2, h3⟩ := runAll_segments_ok (processSym c) (fun s new => SymSegment c s new ∧ SymRun c s new) c.from_
    (fun s hs ev hn => by
      obtain ⟨new, hnew, hseg⟩ := processSym_segment hs ev
      refine ⟨new, hnew, hseg, ?_⟩
      unfold processSym at hn hnew
      split at hn
      · rename_i hsup
        exact Or.inl ⟨hsup, hseg.suppressed hsup⟩
      · rename_i hsup
        rw [if_neg hsup] at hnew
        refine Or.inr ⟨by rw [← Bool.not_eq_true]; exact hsup, ?_⟩
        obtain ⟨hd, e1, e2⟩ := fullRedirect_segment hs ev
        simp only at hn hnew
        cases hfr : fullRedirect c s ev with
        | mk same tr =>
          obtain ⟨ev', flt⟩ := tr
          rw [hfr] at hn e1 hnew
          cases flt with
          | some e => simp [Trace.andThen_some] at hn
          | none =>
            rw [Trace.andThen_none] at hn hnew
            simp only at e1 hn hnew
            subst e1
            obtain ⟨segs, g1, g2, g3⟩ := runAll_segments_ok (processRel c s same)
              (fun r new => RelSegment c s r new ∧ ∃ ev same, processRel c s same r ev = (ev ++ new, none)) s.rels
              (fun r hr ev2 hn2 => by
                obtain ⟨new2, n1, n2⟩ := processRel_segment hs hr (same := same) (by
                  have := fullRedirect_same c s ev
                  rw [hfr] at this
                  exact this) ev2
                exact ⟨new2, n1, n2, ev2, same, Prod.ext n1 hn2⟩) (ev ++ hd) hn
            refine ⟨ev, hd, segs, by rw [hfr], ?_, ?_, g2, g3⟩
            · rcases e2 with e2 | ⟨f, t, sz, a, e2, -⟩
              · exact .inl e2
              · exact .inr ⟨f, t, sz, a, e2⟩
            · rw [g1, List.append_assoc] at hnew
              exact (List.append_cancel_left hnew).symm) [] hok
  exact ⟨segs, by unfold processWith; rw [h1, List.nil_append], h2, h3⟩

/-- The events of one relocation in a completed run. -/
theorem processWith_rel_run (c : Ctx) (hnd : c.from_.Nodup) (hok : (processWith c).2 = none) (s : Symbol)
    (hs : s ∈ c.from_) (hsup : suppressed c s = false) (hrel : s.rels.Nodup) (r : Rel) (hr : r ∈ s.rels) :
    ∃ ev same, processRel c s same r ev
      = (ev ++ (processWith c).1.filter (fun e => decide (siteOf e = .relocation s r)), none) := by
  obtain ⟨segs, h1, h2, h3⟩ := processWith_run c hok
  rw [h1]
  obtain ⟨l, hl, h⟩ := filter_segments_mem segs (by rw [h2]; exact hnd) (fun e => decide (siteOf e = .relocation s r)) s
    (by rw [h2]; exact hs) (by
      intro q hq hne
      rw [List.filter_eq_nil_iff]
      intro e he hd
      have := ((h3 q hq).1.ok e he).2
      rw [of_decide_eq_true hd] at this
      exact hne this.symm)
  rw [h]
  rcases (h3 _ hl).2 with ⟨hx, -⟩ | ⟨-, ev, hd, rsegs, -, e4, e1, e2, e3⟩
  · rw [hsup] at hx; cases hx
  · simp only at e1 e2 e3 e4
    rw [e1]
    have hhd : hd.filter (fun e => decide (siteOf e = .relocation s r)) = [] := by
      rcases e4 with rfl | ⟨f, t, sz, a, rfl⟩
      · rfl
      · simp [siteOf]
    rw [List.filter_append, hhd, List.nil_append]
    obtain ⟨l, hl, h⟩ := filter_segments_mem rsegs (by rw [e2]; exact hrel)
      (fun e => decide (siteOf e = .relocation s r)) r (by rw [e2]; exact hr) (by
        intro q hq hne
        rw [List.filter_eq_nil_iff]
        intro e he hd
        have := (e3 q hq).1.site e he
        rw [of_decide_eq_true hd] at this
        exact hne (by simpa using this.symm))
    rw [h]
    obtain ⟨e5, ev', same, e6⟩ := e3 _ hl
    rw [List.filter_eq_self.mpr fun e he => decide_eq_true (e5.site e he)]
    exact ⟨ev', same, e6⟩

/-- The redirect of one function in a completed run. -/
theorem processWith_fun_run (c : Ctx) (hok : (processWith c).2 = none) (s : Symbol)
    (hs : s ∈ c.from_) (hsup : suppressed c s = false) :
    ∃ ev hd, (fullRedirect c s ev).2 = (ev ++ hd, none) ∧ ∀ e ∈ hd, e ∈ (processWith c).1 := by
  obtain ⟨segs, h1, h2, h3⟩ := processWith_run c hok
  rw [← h2] at hs
  obtain ⟨⟨s', l⟩, hp, rfl⟩ := List.mem_map.mp hs
  rcases (h3 _ hp).2 with ⟨hx, -⟩ | ⟨-, ev, hd, rsegs, e0, -, e1, -, -⟩
  · rw [hsup] at hx; cases hx
  · refine ⟨ev, hd, e0, ?_⟩
    intro e he
    rw [h1]
    refine List.mem_flatten.mpr ⟨l, List.mem_map.mpr ⟨_, hp, rfl⟩, ?_⟩
    simp only at e1
    rw [e1]
    exact List.mem_append_left _ he

/-! ### Number of events -/

section
variable {c : Ctx} (hcb : c.cb.redirect.isSome = true) (hsk : c.cb.skipmsg = true)
include hsk
theorem callSkip_length (site : Site) (f t : Addr) (r : Reason) (ev : List Event) :
    (callSkip c site f t r ev).length = ev.length + 1 := by
  unfold callSkip
  rw [if_pos hsk]; simp

omit hsk in
include hcb in
theorem callRedirect_length (site : Site) (f t sz : Addr) (ev : List Event) :
    (callRedirect c site f t sz ev).2.length = ev.length + 1 := by
  obtain ⟨g, hg⟩ := Option.isSome_iff_exists.mp hcb
  unfold callRedirect
  rw [hg]; simp

omit hsk in
theorem callRelocate_length (site : Site) (r : Rel) (t : Addr) (y : Symbol) (ev : List Event) :
    ev.length ≤ (callRelocate c site r t y ev).2.length ∧
      ((callRelocate c site r t y ev).1 = true → (callRelocate c site r t y ev).2.length = ev.length + 1) := by
  unfold callRelocate
  cases c.cb.relocate <;> simp

include hcb in
theorem branchInsn_length (s : Symbol) (r : Rel) (v : Addr) (t : Symbol) (ev : List Event) :
    ev.length + 1 ≤ (branchInsn c s r v t ev).length := by
  unfold branchInsn
  simp only
  split
  · split
    · rw [callRedirect_length hcb]; omega
    · rw [callSkip_length hsk, callRedirect_length hcb]; omega
  · simp only [Bool.false_eq_true, if_false]
    rw [callSkip_length hsk]; omega

include hcb in
theorem localBranch_length (s : Symbol) (r : Rel) (v : Addr) (t : Symbol) (ev : List Event) :
    ev.length + 1 ≤ (localBranch c s r v t ev).length := by
  obtain ⟨h1, h2⟩ := callRelocate_length (c := c) (.relocation s r) r (v + c.to_base) t ev
  unfold localBranch
  simp only
  split
  · cases ha : (callRelocate c (.relocation s r) r (v + c.to_base) t ev).1 with
    | true =>
      simp only [if_true, ha]
      have := h2 ha
      omega
    | false =>
      simp only [Bool.false_eq_true, if_false]
      split
      · split
        · rw [callRedirect_length hcb]; omega
        · refine Nat.le_trans ?_ (branchInsn_length hcb hsk ..)
          rw [callRedirect_length hcb]; omega
      · simp only [ha, Bool.false_eq_true, if_false]
        exact Nat.le_trans (by omega) (branchInsn_length hcb hsk ..)
  · simp only [Bool.false_eq_true, if_false]
    exact branchInsn_length hcb hsk ..

end

/-! ### No faults -/

theorem processWith_nofault (c : Ctx) (hsize : ∀ s ∈ c.from_, isFunc s = true → s.has SYMBOL_TRAMPOLINE = false →
      redirectOffset s < s.size) (hmap : ∀ m ∈ c.mapping, ∃ y, Tree.floor c.to m.2 = some y) :
    (processWith c).2 = none := by
  refine runAll_nofault _ _ (fun s hs ev => ?_) _
  unfold processSym
  split
  · rfl
  · simp only
    have h1 : (fullRedirect c s ev).2.2 = none := by
      unfold fullRedirect
      split
      · rfl
      · split
        · rfl
        · simp only
          split
          · rename_i hf
            simp only [Bool.and_eq_true, Bool.not_eq_true'] at hf
            rw [massert_ok (decide_eq_true (hsize s hs hf.1 hf.2))]
          · rfl
    cases hfr : (fullRedirect c s ev).2 with
    | mk ev' flt =>
      rw [hfr] at h1
      simp only at h1
      subst h1
      rw [Trace.andThen_none]
      refine runAll_nofault _ _ (fun r _ ev => ?_) _
      unfold processRel
      simp only
      split
      · rfl
      · rename_i m hm
        obtain ⟨y, hy⟩ := hmap m (Tree.find_mem hm).1
        simp only [hy, mderef]
        split
        · rfl
        · split
          · rfl
          · split
            · rfl
            · split
              · split <;> rfl
              · rfl

/-! ### Shifted load addresses -/

section
variable {d e : Addr} {c c' : Ctx}

/-- `c'` is `c` with other load addresses and corresponding callbacks. -/
structure ShiftedCtx (d e : Addr) (c c' : Ctx) : Prop where
  build : c'.build = c.build
  from_ : c'.from_ = c.from_
  to : c'.to = c.to
  mapping : c'.mapping = c.mapping
  flags : c'.flags = c.flags
  from_base : c'.from_base = c.from_base + d
  to_base : c'.to_base = c.to_base + e
  cb : ShiftedCallbacks d e c.cb c'.cb

/-- Effect of the shift on a trace. -/
def shiftTrace (d e : Addr) (t : Trace) : Trace := (t.1.map (shiftEvent d e), t.2)

theorem callRelocate_shift (h : ShiftedCtx d e c c') (site : Site) (r : Rel) (t : Addr) (y : Symbol) (ev : List Event) :
    callRelocate c' site r (t + c'.to_base) y (ev.map (shiftEvent d e))
      = ((callRelocate c site r (t + c.to_base) y ev).1,
        (callRelocate c site r (t + c.to_base) y ev).2.map (shiftEvent d e)) := by
  have hcb := h.cb.relocate
  unfold callRelocate
  rw [h.to_base, ← BitVec.add_assoc]
  cases hc : c.cb.relocate with
  | none =>
    cases hc' : c'.cb.relocate with
    | none => rfl
    | some g => rw [hc, hc'] at hcb; exact hcb.elim
  | some f =>
    cases hc' : c'.cb.relocate with
    | none => rw [hc, hc'] at hcb; exact hcb.elim
    | some g =>
      rw [hc, hc'] at hcb
      simp only at hcb
      simp [hcb, shiftEvent]

theorem callRedirect_shift (h : ShiftedCtx d e c c') (site : Site) (f t sz : Addr) (ev : List Event) :
    callRedirect c' site (f + c'.from_base) (t + c'.to_base) sz (ev.map (shiftEvent d e))
      = ((callRedirect c site (f + c.from_base) (t + c.to_base) sz ev).1,
        (callRedirect c site (f + c.from_base) (t + c.to_base) sz ev).2.map (shiftEvent d e)) := by
  have hcb := h.cb.redirect
  unfold callRedirect
  rw [h.to_base, ← BitVec.add_assoc, h.from_base, ← BitVec.add_assoc]
  cases hc : c.cb.redirect with
  | none =>
    cases hc' : c'.cb.redirect with
    | none => rfl
    | some g => rw [hc, hc'] at hcb; exact hcb.elim
  | some f =>
    cases hc' : c'.cb.redirect with
    | none => rw [hc, hc'] at hcb; exact hcb.elim
    | some g =>
      rw [hc, hc'] at hcb
      simp only at hcb
      simp [hcb, shiftEvent]

theorem callSkip_shift (h : ShiftedCtx d e c c') (site : Site) (f t : Addr) (r : Reason) (hr : r ≠ .noTarget)
    (ev : List Event) :
    callSkip c' site (f + c'.from_base) (t + c'.to_base) r (ev.map (shiftEvent d e))
      = (callSkip c site (f + c.from_base) (t + c.to_base) r ev).map (shiftEvent d e) := by
  unfold callSkip
  rw [h.to_base, ← BitVec.add_assoc, h.from_base, ← BitVec.add_assoc, h.cb.skipmsg]
  split
  · cases r
    · simp [shiftEvent]
    · simp [shiftEvent]
    · exact (hr rfl).elim
  · rfl

theorem callSkip_shift_none (h : ShiftedCtx d e c c') (site : Site) (f : Addr) (ev : List Event) :
    callSkip c' site (f + c'.from_base) 0 .noTarget (ev.map (shiftEvent d e))
      = (callSkip c site (f + c.from_base) 0 .noTarget ev).map (shiftEvent d e) := by
  unfold callSkip
  rw [h.from_base, ← BitVec.add_assoc, h.cb.skipmsg]
  split <;> simp [shiftEvent]

theorem branchInsn_shift (h : ShiftedCtx d e c c') (s : Symbol) (r : Rel) (v : Addr) (t : Symbol) (ev : List Event) :
    branchInsn c' s r v t (ev.map (shiftEvent d e)) = (branchInsn c s r v t ev).map (shiftEvent d e) := by
  unfold branchInsn
  simp only [callRedirect_shift h]
  split
  · simp only
    split
    · rfl
    · exact callSkip_shift h _ _ _ _ (by decide) _
  · simp only [Bool.false_eq_true, if_false]
    exact callSkip_shift h _ _ _ _ (by decide) _

theorem localBranch_shift (h : ShiftedCtx d e c c') (s : Symbol) (r : Rel) (v : Addr) (t : Symbol) (ev : List Event) :
    localBranch c' s r v t (ev.map (shiftEvent d e)) = (localBranch c s r v t ev).map (shiftEvent d e) := by
  unfold localBranch
  simp only [callRelocate_shift h]
  split
  · cases ha : (callRelocate c (.relocation s r) r (v + c.to_base) t ev).1 with
    | true => simp [ha]
    | false =>
      simp only [Bool.false_eq_true, if_false, callRedirect_shift h]
      split
      · simp only
        split
        · rfl
        · exact branchInsn_shift h ..
      · simp only [ha, Bool.false_eq_true, if_false]
        exact branchInsn_shift h ..
  · simp only [Bool.false_eq_true, if_false]
    exact branchInsn_shift h ..

theorem processRel_shift (h : ShiftedCtx d e c c') (s : Symbol) (same : Bool) (r : Rel) (ev : List Event) :
    processRel c' s same r (ev.map (shiftEvent d e)) = shiftTrace d e (processRel c s same r ev) := by
  unfold processRel shiftTrace
  rw [h.mapping, h.to, h.flags, h.build]
  simp only
  split
  · rw [callSkip_shift_none h]
  · split
    · rfl
    · split
      · rfl
      · split
        · rfl
        · split
          · rw [localBranch_shift h]
          · split
            · simp only [callRelocate_shift h, callRedirect_shift h]
              split <;> rfl
            · rw [callSkip_shift h _ _ _ _ (by decide)]

theorem runAll_shift {α : Type} (f f' : α → List Event → Trace) (d e : Addr)
    (hf : ∀ x ev, f' x (ev.map (shiftEvent d e)) = shiftTrace d e (f x ev)) (xs : List α) (ev : List Event) :
    runAll f' xs (ev.map (shiftEvent d e)) = shiftTrace d e (runAll f xs ev) := by
  induction xs generalizing ev with
  | nil => rfl
  | cons x xs ih =>
    unfold runAll
    rw [hf]
    cases hfx : f x ev with
    | mk ev' flt =>
      cases flt with
      | none => exact ih ev'
      | some e => rfl

theorem fullRedirect_shift (h : ShiftedCtx d e c c') (s : Symbol) (ev : List Event) :
    fullRedirect c' s (ev.map (shiftEvent d e)) = ((fullRedirect c s ev).1, shiftTrace d e (fullRedirect c s ev).2) := by
  unfold fullRedirect shiftTrace
  rw [h.mapping, h.to, h.build]
  split
  · rfl
  · split
    · rfl
    · simp only
      split
      · split
        · rfl
        · rw [callRedirect_shift h]
      · rfl

theorem processSym_shift (h : ShiftedCtx d e c c') (s : Symbol) (ev : List Event) :
    processSym c' s (ev.map (shiftEvent d e)) = shiftTrace d e (processSym c s ev) := by
  unfold processSym
  rw [h.flags]
  split
  · rfl
  · simp only [fullRedirect_shift h]
    cases hfr : fullRedirect c s ev with
    | mk same tr =>
      obtain ⟨ev', flt⟩ := tr
      cases flt with
      | none => exact runAll_shift _ _ d e (processRel_shift h s same) _ _
      | some e => rfl

theorem processWith_shift (h : ShiftedCtx d e c c') : processWith c' = shiftTrace d e (processWith c) := by
  unfold processWith
  rw [h.from_]
  exact runAll_shift _ _ d e (processSym_shift h) _ []

end

end Bean

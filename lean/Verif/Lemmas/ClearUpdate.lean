import Verif.Lemmas.ClearUse
import Verif.Spec.Clear
import Verif.Model.Update
/-
Updates with symbols whose relocations differ in the parts that are not set (C47).
-/
namespace Bean
open Bean.Spec

theorem clearSym_inj {s s' : Symbol} (h : clearSym s = clearSym s') : s.address = s'.address ∧ s.size = s'.size ∧
    s.type = s'.type ∧ s.flags = s'.flags ∧ s.sec = s'.sec ∧ s.id = s'.id ∧ s.rels.map clearRel = s'.rels.map clearRel :=
  ⟨congrArg (·.address) h, congrArg (·.size) h, congrArg (·.type) h, congrArg (·.flags) h, congrArg (·.sec) h,
    congrArg (·.id) h, congrArg (·.rels) h⟩

/-- Elements of lists with the same images. -/
theorem map_cons_inj {α β : Type} {g : α → β} {x : α} {l l' : List α} (h : (x :: l).map g = l'.map g) :
    ∃ x' r, l' = x' :: r ∧ g x = g x' ∧ l.map g = r.map g := by
  cases l' with
  | nil => cases h
  | cons x' r => exact ⟨x', r, rfl, (List.cons.inj h).1, (List.cons.inj h).2⟩

/-- Traces without the parts. -/
def PlainEq (o o' : Trace) : Prop := o.1.map plainEvent = o'.1.map plainEvent ∧ o.2 = o'.2

theorem runAll_plain {α : Type} {f f' : α → List Event → Trace} {β : Type} {g : α → β}
    (h : ∀ x x' ev ev', g x = g x' → ev.map plainEvent = ev'.map plainEvent → PlainEq (f x ev) (f' x' ev'))
    (l l' : List α) (hl : l.map g = l'.map g) (ev ev' : List Event) (he : ev.map plainEvent = ev'.map plainEvent) :
    PlainEq (runAll f l ev) (runAll f' l' ev') := by
  induction l generalizing l' ev ev' with
  | nil =>
    cases l' with
    | nil => exact ⟨he, rfl⟩
    | cons => cases hl
  | cons x l ih =>
    obtain ⟨x', r, rfl, hx, hr⟩ := map_cons_inj hl
    have := h x x' ev ev' hx he
    unfold runAll Trace.andThen
    rw [← this.2]
    cases hf : (f x ev).2 with
    | none => exact ih r hr _ _ this.1
    | some e => exact ⟨this.1, this.2⟩

section
variable {c c' : Ctx} (hcb : PlainCallbacks c.cb) (ecb : c'.cb = c.cb) (eb : c'.build = c.build) (efb : c'.from_base = c.from_base)
  (etb : c'.to_base = c.to_base) (ef : c'.flags = c.flags) (em : c'.mapping = c.mapping)
  (eto : c.to.map clearSym = c'.to.map clearSym)
include hcb ecb

theorem callRelocate_plain {site site' : Site} {rel rel' : Rel} {to : Addr} {t t' : Symbol} {ev ev' : List Event}
    (hs : plainSite site = plainSite site') (hr : clearRel rel = clearRel rel') (ht : clearSym t = clearSym t')
    (he : ev.map plainEvent = ev'.map plainEvent) :
    (callRelocate c site rel to t ev).1 = (callRelocate c' site' rel' to t' ev').1 ∧
    (callRelocate c site rel to t ev).2.map plainEvent = (callRelocate c' site' rel' to t' ev').2.map plainEvent := by
  unfold callRelocate
  rw [ecb]
  cases hf : c.cb.relocate with
  | none => exact ⟨rfl, he⟩
  | some f =>
    have ha := hcb.relocate f hf ev ev' rel rel' to t t' he hr ht
    simp only
    refine ⟨ha, ?_⟩
    rw [List.map_append, List.map_append, he, List.map_cons, List.map_cons]
    simp only [plainEvent, hs, hr, ht, ha]

theorem callRedirect_plain {site site' : Site} {a a' to size size' : Addr} {ev ev' : List Event}
    (hs : ∀ b : Bool, plainEvent (.redirect site a to size b) = plainEvent (.redirect site' a' to size' b))
    (he : ev.map plainEvent = ev'.map plainEvent) :
    (callRedirect c site a to size ev).1 = (callRedirect c' site' a' to size' ev').1 ∧
    (callRedirect c site a to size ev).2.map plainEvent = (callRedirect c' site' a' to size' ev').2.map plainEvent := by
  unfold callRedirect
  rw [ecb]
  cases hf : c.cb.redirect with
  | none => exact ⟨rfl, he⟩
  | some f =>
    have ha := hcb.redirect f hf ev ev' a a' to size size' he
    simp only
    refine ⟨ha, ?_⟩
    rw [List.map_append, List.map_append, he, List.map_cons, List.map_cons, ha, hs]

omit hcb in
theorem callSkip_plain {site site' : Site} {a to : Addr} {reason : Reason} {ev ev' : List Event}
    (hs : plainSite site = plainSite site') (he : ev.map plainEvent = ev'.map plainEvent) :
    (callSkip c site a to reason ev).map plainEvent = (callSkip c' site' a to reason ev').map plainEvent := by
  unfold callSkip
  rw [ecb]
  split
  · rw [List.map_append, List.map_append, he, List.map_cons, List.map_cons]
    simp only [plainEvent, hs]
  · exact he

omit hcb ecb in
include eto in
theorem floor_plain (a : Addr) : (Tree.floor c.to a = none ∧ Tree.floor c'.to a = none) ∨
    ∃ t t', Tree.floor c.to a = some t ∧ Tree.floor c'.to a = some t' ∧ clearSym t = clearSym t' := by
  have h := Tree.floor_map clearSym_key c.to a
  rw [eto, Tree.floor_map clearSym_key] at h
  cases h1 : Tree.floor c.to a with
  | none =>
    rw [h1] at h
    cases h2 : Tree.floor c'.to a with
    | none => exact .inl ⟨rfl, rfl⟩
    | some t' => rw [h2] at h; cases h
  | some t =>
    rw [h1] at h
    cases h2 : Tree.floor c'.to a with
    | none => rw [h2] at h; cases h
    | some t' =>
      rw [h2] at h
      exact .inr ⟨t, t', rfl, rfl, (Option.some.inj h).symm⟩

include eb efb etb ef em eto

theorem fullRedirect_plain {s s' : Symbol} {ev ev' : List Event} (hs : clearSym s = clearSym s')
    (he : ev.map plainEvent = ev'.map plainEvent) :
    (fullRedirect c s ev).1 = (fullRedirect c' s' ev').1 ∧ PlainEq (fullRedirect c s ev).2 (fullRedirect c' s' ev').2 := by
  obtain ⟨h1, h2, h3, h4, h5, h6, h7⟩ := clearSym_inj hs
  have e1 : isFunc s = isFunc s' := by unfold isFunc; rw [h3, h5]
  have e2 : ∀ f, s.has f = s'.has f := fun f => by unfold Symbol.has; rw [h4]
  have e3 : redirectOffset s = redirectOffset s' := by unfold redirectOffset; rw [e2]
  unfold fullRedirect
  rw [em, h1]
  cases Tree.find c.mapping s'.address with
  | none => exact ⟨rfl, he, rfl⟩
  | some m =>
    simp only
    rcases floor_plain eto m.2 with ⟨f1, f2⟩ | ⟨t, t', f1, f2, ht⟩
    · rw [f1, f2]; exact ⟨rfl, he, rfl⟩
    · rw [f1, f2]
      obtain ⟨g1, g2, g3, g4, g5, g6, g7⟩ := clearSym_inj ht
      simp only [e1, e2, e3, h2, h6, g6, eb]
      split
      · cases massert c.build (decide (redirectOffset s' < s'.size)) with
        | error e => exact ⟨rfl, he, rfl⟩
        | ok u =>
          refine ⟨rfl, ?_, rfl⟩
          rw [efb, etb, g1]
          refine (callRedirect_plain hcb ecb (fun b => ?_) he).2
          change Event.redirect (.function (clearSym s)) _ _ 0 b = Event.redirect (.function (clearSym s')) _ _ 0 b
          rw [hs]
      · exact ⟨rfl, he, rfl⟩

theorem processRel_plain (hi : c.flags.ignore_local_rels = true) (ho : c.flags.only_branch_rels = false) {s s' : Symbol}
    (same : Bool) {rel rel' : Rel} {ev ev' : List Event} (hs : clearSym s = clearSym s') (hr : clearRel rel = clearRel rel')
    (he : ev.map plainEvent = ev'.map plainEvent) :
    PlainEq (processRel c s same rel ev) (processRel c' s' same rel' ev') := by
  have hsite : plainSite (.relocation s rel) = plainSite (.relocation s' rel') := by
    change Site.relocation (clearSym s) (clearRel rel) = Site.relocation (clearSym s') (clearRel rel')
    rw [hs, hr]
  have htar : rel.target = rel'.target := by
    have := congrArg Rel.target hr
    rwa [(clearRel_ext rel).2.2.2.2.1, (clearRel_ext rel').2.2.2.2.1] at this
  have hoff : rel.offset = rel'.offset := by
    have := congrArg Rel.offset hr
    rwa [(clearRel_ext rel).1, (clearRel_ext rel').1] at this
  unfold processRel
  rw [em, htar, ef]
  simp only [hi, ho, Bool.not_true, Bool.and_false, Bool.false_and, Bool.false_eq_true, if_false]
  cases Tree.find c.mapping rel'.target with
  | none =>
    simp only
    rw [hoff, efb]
    exact ⟨callSkip_plain ecb hsite he, rfl⟩
  | some m =>
    simp only [eb]
    rcases floor_plain eto m.2 with ⟨f1, f2⟩ | ⟨t, t', f1, f2, ht⟩
    · rw [f1, f2]
      cases c.build <;> exact ⟨he, rfl⟩
    · rw [f1, f2]
      obtain ⟨g1, g2, g3, g4, g5, g6, g7⟩ := clearSym_inj ht
      simp only [mderef, g5]
      split
      · exact ⟨he, rfl⟩
      · split
        · rw [etb]
          obtain ⟨k1, k2⟩ := callRelocate_plain hcb ecb (to := m.2 + c.to_base) hsite hr ht he
          rw [k1]
          split
          · exact ⟨k2, rfl⟩
          · exact ⟨(callRedirect_plain hcb ecb (fun b => by unfold plainEvent; simp only; rw [hsite]) k2).2, rfl⟩
        · rw [hoff, efb, etb]
          exact ⟨callSkip_plain ecb hsite he, rfl⟩

theorem processSym_plain (hi : c.flags.ignore_local_rels = true) (ho : c.flags.only_branch_rels = false) {s s' : Symbol}
    {ev ev' : List Event} (hs : clearSym s = clearSym s') (he : ev.map plainEvent = ev'.map plainEvent) :
    PlainEq (processSym c s ev) (processSym c' s' ev') := by
  obtain ⟨h1, h2, h3, h4, h5, h6, h7⟩ := clearSym_inj hs
  have e1 : isFunc s = isFunc s' := by unfold isFunc; rw [h3, h5]
  have e2 : ∀ f, s.has f = s'.has f := fun f => by unfold Symbol.has; rw [h4]
  obtain ⟨k1, k2, k3⟩ := fullRedirect_plain hcb ecb eb efb etb ef em eto hs he
  unfold processSym
  rw [e1, e2, ef]
  split
  · exact ⟨he, rfl⟩
  · unfold Trace.andThen
    simp only [← k3, ← k1]
    cases hf : (fullRedirect c s ev).2.2 with
    | some e => exact ⟨k2, k3⟩
    | none =>
      exact runAll_plain (g := clearRel) (fun x x' ev ev' hx he => processRel_plain hcb ecb eb efb etb ef em eto hi ho _ hs hx he)
        _ _ h7 _ _ k2

theorem processWith_plain (hi : c.flags.ignore_local_rels = true) (ho : c.flags.only_branch_rels = false)
    (hf : c.from_.map clearSym = c'.from_.map clearSym) : PlainEq (processWith c) (processWith c') :=
  runAll_plain (g := clearSym) (fun _ _ _ _ hx he => processSym_plain hcb ecb eb efb etb ef em eto hi ho hx he) _ _ hf _ _ rfl

end

end Bean

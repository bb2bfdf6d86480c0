import Verif.Spec.Run
import Verif.Lemmas.FindFunctions
import Verif.Lemmas.Reconstruct
import Verif.Lemmas.HashExternal
import Verif.Lemmas.OffsetIds
/-
Lemmas on the composition of all steps of the analysis.
-/
namespace Bean
open Tree Spec

/-! ### Insertions -/

/-- Symbols after a sequence of insertions with arguments as described by `A` and, if the names of imported functions are
set (`N`), renamings and further symbols. -/
inductive Touch (b : Build) (A : InsertArgs → Prop) (N : Prop) (t : SymTree) : SymTree → Prop
  | refl : Touch b A N t t
  | insert {t1 t2 : SymTree} {a : InsertArgs} : Touch b A N t t1 → A a → insertSymbol b t1 a = .ok t2 → Touch b A N t t2
  | rename {t1 : SymTree} (k : Addr) (n : Option String) : N → Touch b A N t t1 →
      Touch b A N t (Tree.modify t1 k (fun s => { s with name := n }))
  | emplace {t1 : SymTree} (a : InsertArgs) : N → a.section_name.isSome = true → a.bind = .local → Touch b A N t t1 →
      Touch b A N t (Tree.insert t1 (newSymbol a)).1

theorem Touch.trans {b : Build} {A : InsertArgs → Prop} {N : Prop} {t t1 t2 : SymTree} (h1 : Touch b A N t t1) (h2 : Touch b A N t1 t2) :
    Touch b A N t t2 := by
  induction h2 with
  | refl => exact h1
  | insert _ ha hi ih => exact .insert ih ha hi
  | rename k n hN _ ih => exact .rename k n hN ih
  | emplace a hN hn hb _ ih => exact .emplace a hN hn hb ih

theorem Touch.mono {b : Build} {A B : InsertArgs → Prop} {N : Prop} (h : ∀ a, A a → B a) {t t' : SymTree} (h1 : Touch b A N t t') :
    Touch b B N t t' := by
  induction h1 with
  | refl => exact .refl
  | insert _ ha hi ih => exact .insert ih (h _ ha) hi
  | rename k n hN _ ih => exact .rename k n hN ih
  | emplace a hN hn hb _ ih => exact .emplace a hN hn hb ih

theorem Touch.weaken {b : Build} {A : InsertArgs → Prop} {N N' : Prop} (h : N → N') {t t' : SymTree} (h1 : Touch b A N t t') :
    Touch b A N' t t' := by
  induction h1 with
  | refl => exact .refl
  | insert _ ha hi ih => exact .insert ih ha hi
  | rename k n hN _ ih => exact .rename k n (h hN) ih
  | emplace a hN hn hb _ ih => exact .emplace a (h hN) hn hb ih

theorem Touch.one {b : Build} {A : InsertArgs → Prop} {N : Prop} {t t' : SymTree} {a : InsertArgs} (ha : A a)
    (h : insertSymbol b t a = .ok t') : Touch b A N t t' := .insert .refl ha h

theorem Touch.all {b : Build} {A : InsertArgs → Prop} {N : Prop} (as : List InsertArgs) : ∀ {t t' : SymTree}, (∀ a ∈ as, A a) →
    insertAll b t as = .ok t' → Touch b A N t t' := by
  induction as with
  | nil => intro t t' _ h; cases h; exact .refl
  | cons a as ih =>
    intro t t' hA h
    rw [insertAll_cons] at h
    cases h1 : insertSymbol b t a with
    | error e => rw [h1] at h; cases h
    | ok t1 =>
      rw [h1] at h
      exact (Touch.one (hA a (by simp)) h1).trans (ih (fun x hx => hA x (List.mem_cons_of_mem _ hx)) h)

theorem Touch.sorted {b : Build} {A : InsertArgs → Prop} {N : Prop} {t t' : SymTree} (h : Touch b A N t t') (hs : Sorted t) : Sorted t' := by
  induction h with
  | refl => exact hs
  | insert _ _ hi ih => exact (insertSymbol_spec ih hi).1
  | rename k n _ _ ih => exact sorted_modify ih k _ (fun _ => rfl)
  | emplace a _ _ _ _ ih => exact sorted_insert ih _

/-- A property of symbols that is kept by merging and renaming. -/
theorem Touch.inv {b : Build} {A : InsertArgs → Prop} {N : Prop} {P : Symbol → Prop} (hnew : ∀ a, P (newSymbol a))
    (hmerge : ∀ a s, P s → P (mergeSymbol a s)) (hname : ∀ n s, P s → P { s with name := n })
    {t t' : SymTree} (h : Touch b A N t t') (hs : Sorted t) (h0 : ∀ s ∈ t, P s) : ∀ s ∈ t', P s := by
  induction h with
  | refl => exact h0
  | @insert t1 t2 a h1 _ hi ih =>
    intro s hsm
    obtain ⟨e1, e2, e3⟩ := insertSymbol_spec (h1.sorted hs) hi
    have hfind := (find_eq_some_iff e1).mpr ⟨hsm, rfl⟩
    by_cases hk : s.address = a.address
    · rw [show Keyed.key s = a.address from hk, e2] at hfind
      rw [← Option.some.inj hfind]
      unfold stepAt
      split
      · exact hnew a
      · rename_i pos hp
        have hpos := ih pos (find_mem hp).1
        split
        · exact hpos
        · split
          · exact hmerge a pos hpos
          · exact hpos
    · rw [show Keyed.key s = s.address from rfl, e3 _ hk] at hfind
      exact ih s (find_mem hfind).1
  | @rename t1 k n hN h1 ih =>
    intro s hsm
    obtain ⟨s0, h0, rfl⟩ := List.mem_map.mp hsm
    split
    · exact hname n s0 (ih s0 h0)
    · exact ih s0 h0
  | @emplace t1 a hN hn hb h1 ih =>
    intro s hsm
    rcases (mem_insert' (h1.sorted hs)).mp hsm with h2 | ⟨rfl, _⟩
    · exact ih s h2
    · exact hnew a

/-- A property of the symbol at an address that is kept by merging with suitable arguments and renaming. -/
theorem Touch.at {b : Build} {A : InsertArgs → Prop} {N : Prop} {P : Symbol → Prop} {k : Addr}
    (hmerge : ∀ a s, A a → a.address = k → s.address = k → P s → P (stepAt a (some s)))
    (hname : N → ∀ n s, P s → P { s with name := n })
    {t t' : SymTree} (h : Touch b A N t t') (hs : Sorted t) (h0 : ∃ s ∈ t, s.address = k ∧ P s) :
    ∃ s ∈ t', s.address = k ∧ P s := by
  induction h with
  | refl => exact h0
  | @insert t1 t2 a h1 hA hi ih =>
    obtain ⟨s, hsm, hk, hP⟩ := ih
    have hs1 := h1.sorted hs
    obtain ⟨e1, e2, e3⟩ := insertSymbol_spec hs1 hi
    have hfind : Tree.find t1 k = some s := (find_eq_some_iff hs1).mpr ⟨hsm, hk⟩
    by_cases ha : a.address = k
    · rw [ha, hfind] at e2
      refine ⟨_, (find_mem e2).1, ?_, hmerge a s hA ha hk hP⟩
      exact (find_mem e2).2
    · have := e3 k (fun e => ha e.symm)
      rw [hfind] at this
      exact ⟨s, (find_mem this).1, hk, hP⟩
  | @rename t1 k' n hN h1 ih =>
    obtain ⟨s, hsm, hk, hP⟩ := ih
    refine ⟨_, List.mem_map_of_mem hsm, ?_, ?_⟩
    · split <;> exact hk
    · split
      · exact hname hN n s hP
      · exact hP
  | @emplace t1 a hN hn hb h1 ih =>
    obtain ⟨s, hsm, hk, hP⟩ := ih
    exact ⟨s, (mem_insert' (h1.sorted hs)).mpr (Or.inl hsm), hk, hP⟩

/-- A property of all symbols at an address that holds for new ones and is kept by merging. -/
theorem Touch.always {b : Build} {A : InsertArgs → Prop} {P : Symbol → Prop} {k : Addr}
    (hnew : ∀ a, A a → a.address = k → P (newSymbol a))
    (hmerge : ∀ a s, A a → a.address = k → s.address = k → P s → P (stepAt a (some s)))
    {t t' : SymTree} (h : Touch b A False t t') (hs : Sorted t) (h0 : ∀ s ∈ t, s.address = k → P s) :
    ∀ s ∈ t', s.address = k → P s := by
  induction h with
  | refl => exact h0
  | @insert t1 t2 a h1 hA hi ih =>
    intro s hsm hk
    have hs1 := h1.sorted hs
    obtain ⟨e1, e2, e3⟩ := insertSymbol_spec hs1 hi
    have hfind := (find_eq_some_iff e1).mpr ⟨hsm, hk⟩
    by_cases ha : a.address = k
    · rw [ha] at e2
      rw [e2] at hfind
      rw [← Option.some.inj hfind]
      cases hp : Tree.find t1 k with
      | none => exact hnew a hA ha
      | some pos => exact hmerge a pos hA ha (find_mem hp).2 (ih pos (find_mem hp).1 (find_mem hp).2)
    · rw [e3 k (fun e => ha e.symm)] at hfind
      exact ih s (find_mem hfind).1 hk
  | rename _ _ hN => exact hN.elim
  | emplace _ hN => exact hN.elim

/-- Nothing has been computed for the symbol. -/
structure Fresh (s : Symbol) : Prop where
  rels : s.rels = []
  ids : s.offset_ids = []
  ident : s.id = {}
  deps : s.deps = []
  refs : s.refs = []

theorem Touch.fresh {b : Build} {A : InsertArgs → Prop} {N : Prop} {t t' : SymTree} (h : Touch b A N t t') (hs : Sorted t)
    (h0 : ∀ s ∈ t, Fresh s) : ∀ s ∈ t', Fresh s :=
  h.inv (fun _ => ⟨rfl, rfl, rfl, rfl, rfl⟩) (fun _ _ h => ⟨h.rels, h.ids, h.ident, h.deps, h.refs⟩)
    (fun _ _ h => ⟨h.rels, h.ids, h.ident, h.deps, h.refs⟩) hs h0

/-! ### Search for functions -/

theorem foldlM_rel {α σ : Type} {f : σ → α → M σ} (R : σ → σ → Prop) (hr : ∀ s, R s s)
    (ht : ∀ a b c, R a b → R b c → R a c) {l : List α} {s s' : σ} (hstep : ∀ x ∈ l, ∀ a a', f a x = .ok a' → R a a')
    (h : l.foldlM f s = .ok s') : R s s' := by
  induction l generalizing s with
  | nil => cases h; exact hr _
  | cons x l ih =>
    rw [List.foldlM_cons] at h
    cases h1 : f s x with
    | error e => rw [h1] at h; cases h
    | ok a =>
      rw [h1] at h
      exact ht _ _ _ (hstep x (by simp) s a h1) (ih (fun y hy => hstep y (List.mem_cons_of_mem _ hy)) h)

/-- Arguments without size and of local binding; functions have a section. -/
def Sizeless (a : InsertArgs) : Prop :=
  a.size = 0 ∧ beanType a.type ≠ .none ∧ a.name = none ∧ (beanType a.type = .func → a.section_name.isSome = true) ∧
    a.bind = .local

theorem plain_sizeless (sec : ElfSec) (k : Addr) : Sizeless (plainArgs sec k) :=
  ⟨rfl, (by decide : beanType .hiproc ≠ .none), rfl, fun _ => rfl, rfl⟩
theorem plain_func (sec : ElfSec) (k : Addr) : Sizeless (plainArgs sec k .func) :=
  ⟨rfl, (by decide : beanType .func ≠ .none), rfl, fun _ => rfl, rfl⟩

/-- Arguments of the marks for the ends of segments. -/
theorem mark_sizeless (a : InsertArgs) (h1 : a.size = 0) (h2 : a.type = .hiproc) (h3 : a.name = none)
    (h4 : a.bind = .local) : Sizeless a :=
  ⟨h1, by rw [h2]; decide, h3, fun h => (by rw [h2] at h; cases h), h4⟩

theorem insertStart_touch {b : Build} {N : Prop} {sec : ElfSec} {a : Addr} {f f1 : FindState} (h : insertStart b sec a f = .ok f1) :
    Touch b Sizeless N f.symbols f1.symbols := by
  unfold insertStart at h
  replace h := (massert_bind_ok h).2
  cases hi : insertSymbol b f.symbols (plainArgs sec (TLS.trans_addr a sec.tls) .func) with
  | error e => rw [hi] at h; cases h
  | ok t' =>
    rw [hi] at h
    cases h
    exact .one (plain_func _ _) hi

theorem findStart_touch {env : Env} {N : Prop} {sec : ElfSec} {i : Insn} {f f1 : FindState} (h : findStart env sec i f = .ok f1) :
    Touch env.build Sizeless N f.symbols f1.symbols := by
  unfold findStart at h
  split at h
  · cases h; exact .refl
  · cases h; exact .refl
  · split at h
    · cases hi : insertStart env.build sec i.address f with
      | error e => rw [hi] at h; cases h
      | ok f2 =>
        rw [hi] at h
        have := insertStart_touch (N := N) hi
        cases h
        exact this
    · cases h; exact .refl
  · split at h
    · cases hi : insertStart env.build sec i.address f with
      | error e => rw [hi] at h; cases h
      | ok f2 =>
        rw [hi] at h
        have := insertStart_touch (N := N) hi
        cases h
        exact this
    · cases h; exact .refl

theorem findGroup_touch {b : Build} {st : AState} {plt : Bool} {i : Insn} {after : Addr} {g : InsGroup} {f f' : FindState}
    (h : findGroup b st plt i after f g = .ok f') : Touch b Sizeless (plt = true) f.symbols f'.symbols := by
  cases g with
  | ret => cases h; exact .refl
  | iret => cases h; exact .refl
  | other => cases h; exact .refl
  | call =>
    change findCall b st i f = .ok f' at h
    unfold findCall at h
    cases hd : directTarget i with
    | error e => rw [hd] at h; cases h
    | ok o =>
      rw [hd] at h
      cases o with
      | none => cases h; exact .refl
      | some target =>
        simp only [bind, Except.bind] at h
        cases hf : Tree.floor st.sections target with
        | none => rw [hf] at h; cases h; exact .refl
        | some sec =>
          simp only [hf] at h
          split at h
          · cases hi : insertSymbol b f.symbols (plainArgs sec (TLS.trans_addr target sec.tls) .func) with
            | error e => rw [hi] at h; cases h
            | ok t' => rw [hi] at h; cases h; exact .one (plain_func _ _) hi
          · cases h; exact .refl
  | jump =>
    change findJump b st plt i after f = .ok f' at h
    unfold findJump at h
    split at h
    · rename_i hplt
      unfold nameImport at h
      replace h := (massert_bind_ok h).2
      split at h
      · rename_i sg base ix sc disp ac rest heq
        replace h := (massert_bind_ok h).2
        cases hm : mderef b (Tree.find st.relocations (i.address + BitVec.ofNat 64 i.size + disp)) with
        | error e => rw [hm] at h; cases h
        | ok rel =>
          rw [hm] at h
          cases hr : rel.symbol with
          | none => simp only [bind, Except.bind, hr] at h; cases h; exact .refl
          | some sym =>
            simp only [bind, Except.bind, hr] at h
            cases hf : Tree.find f.symbols f.start with
            | some y => simp only [hf] at h; cases h; exact .rename _ _ hplt .refl
            | none =>
              simp only [hf] at h
              cases hm2 : mderef b (Tree.floor st.sections f.start) with
              | error e => simp only [hm2] at h; cases h
              | ok sec => simp only [hm2] at h; cases h; exact .emplace _ hplt rfl rfl .refl
      · replace h := (massert_bind_ok h).2
        cases h
    · cases hd : directTarget i with
      | error e => rw [hd] at h; cases h
      | ok o =>
        rw [hd] at h
        cases o with
        | none => cases h; exact .refl
        | some t =>
          have h' : (if t > f.max_branch then { f with max_branch := t } else f) = f' := Except.ok.inj h
          subst h'
          split <;> exact .refl

/-- The names of imported functions are set. -/
def Naming (fl : AnalyzeFlags) (secs : List ElfSec) : Prop := ∃ sec ∈ secs, namesPlt fl sec = true

theorem findFunctions_touch {env : Env} {fl : AnalyzeFlags} {st st' : AState} (h : findFunctions env fl st = .ok st') :
    st' = { st with symbols := st'.symbols } ∧ Touch env.build Sizeless (Naming fl st.sections) st.symbols st'.symbols := by
  unfold findFunctions at h
  cases hf : st.sections.foldlM (findSection env fl st) st.symbols with
  | error e => rw [hf] at h; cases h
  | ok t =>
    rw [hf] at h
    cases h
    refine ⟨rfl, foldlM_rel (Touch env.build Sizeless (Naming fl st.sections)) (fun _ => .refl) (fun _ _ _ h1 h2 => h1.trans h2) ?_ hf⟩
    intro sec hsec t1 t2 h
    unfold findSection at h
    cases hi : insertSymbol env.build t1 (plainArgs sec (TLS.trans_addr sec.virt_addr sec.tls)) with
    | error e => rw [hi] at h; cases h
    | ok t3 =>
      rw [hi] at h
      have h1 : Touch env.build Sizeless (Naming fl st.sections) t1 t3 := .one (plain_sizeless _ _) hi
      change (if sec.executable = true then _ else _) = _ at h
      split at h
      · cases hb : readBytes sec.data 0 sec.size with
        | error e => rw [hb] at h; cases h
        | ok bytes =>
          rw [hb] at h
          cases hf : (disasm env sec.virt_addr bytes).foldlM (findInsn env st sec (namesPlt fl sec))
              { symbols := t3, start := sec.virt_addr, max_branch := sec.virt_addr } with
          | error e => simp only [bind, Except.bind, hf] at h; cases h
          | ok f =>
            simp only [bind, Except.bind, hf] at h
            cases h
            refine h1.trans (foldlM_rel (fun a b : FindState => Touch env.build Sizeless (Naming fl st.sections) a.symbols b.symbols) (fun _ => .refl)
              (fun _ _ _ h1 h2 => h1.trans h2) ?_ hf)
            intro x _ f1 f2 h
            unfold findInsn at h
            split at h
            · cases h; exact .refl
            · cases hs : findStart env sec x.insn f1 with
              | error e => rw [hs] at h; cases h
              | ok f3 =>
                rw [hs] at h
                exact (findStart_touch hs).trans (foldlM_rel
                  (fun a b : FindState => Touch env.build Sizeless (Naming fl st.sections) a.symbols b.symbols) (fun _ => .refl)
                  (fun _ _ _ h1 h2 => h1.trans h2) (fun g _ f1 f2 h => (findGroup_touch h).weaken (fun hp => ⟨sec, hsec, hp⟩)) h)
      · cases h; exact h1

/-! ### Reading -/

/-- The symbols result from operations among which is the insertion of `a`. -/
def Via (b : Build) (A : InsertArgs → Prop) (t : SymTree) (a : InsertArgs) (t' : SymTree) : Prop :=
  ∃ t1 t2, Touch b A False t t1 ∧ insertSymbol b t1 a = .ok t2 ∧ Touch b A False t2 t'

theorem Via.after {b : Build} {A : InsertArgs → Prop} {t t1 t2 : SymTree} {a : InsertArgs} (h1 : Via b A t a t1)
    (h2 : Touch b A False t1 t2) : Via b A t a t2 := by
  obtain ⟨u, v, e1, e2, e3⟩ := h1
  exact ⟨u, v, e1, e2, e3.trans h2⟩

theorem Via.before {b : Build} {A : InsertArgs → Prop} {t t1 t2 : SymTree} {a : InsertArgs} (h1 : Touch b A False t t1)
    (h2 : Via b A t1 a t2) : Via b A t a t2 := by
  obtain ⟨u, v, e1, e2, e3⟩ := h2
  exact ⟨u, v, h1.trans e1, e2, e3⟩

theorem Via.mono {b : Build} {A B : InsertArgs → Prop} (h : ∀ a, A a → B a) {t t' : SymTree} {a : InsertArgs}
    (h1 : Via b A t a t') : Via b B t a t' := by
  obtain ⟨u, v, e1, e2, e3⟩ := h1
  exact ⟨u, v, e1.mono h, e2, e3.mono h⟩

/-- Each of a sequence of insertions takes place. -/
theorem insertAll_via {b : Build} {A : InsertArgs → Prop} (as : List InsertArgs) : ∀ {t t' : SymTree}, (∀ a ∈ as, A a) →
    insertAll b t as = .ok t' → ∀ a ∈ as, Via b A t a t' := by
  induction as with
  | nil => intro t t' _ _ a ha; cases ha
  | cons x as ih =>
    intro t t' hA h a ha
    rw [insertAll_cons] at h
    cases h1 : insertSymbol b t x with
    | error e => rw [h1] at h; cases h
    | ok t1 =>
      rw [h1] at h
      have hA' : ∀ a ∈ as, A a := fun y hy => hA y (List.mem_cons_of_mem _ hy)
      rcases List.mem_cons.mp ha with rfl | ha
      · exact ⟨t, t1, .refl, h1, Touch.all as hA' h⟩
      · exact (ih hA' h a ha).before (Touch.one (hA x (by simp)) h1)

/-- What reading a segment leaves alone and adds. -/
structure SegsRead (b : Build) (segs : List ElfSeg) (st st' : AState) : Prop where
  touch : Touch b Sizeless False st.symbols st'.symbols
  sections : st'.sections = st.sections
  relocations : st'.relocations = st.relocations
  relative : st'.relative_relocations = st.relative_relocations
  tls : st'.tls_segment = st.tls_segment ∨ ∃ seg ∈ segs, seg.type = .tls ∧ st'.tls_segment = some seg
  segments : Sorted st.segments → Sorted st'.segments
  loads : ∀ seg ∈ st'.segments, seg ∈ st.segments ∨ (seg ∈ segs ∧ seg.type = .load)

theorem SegsRead.refl (b : Build) (segs : List ElfSeg) (st : AState) : SegsRead b segs st st :=
  ⟨.refl, rfl, rfl, rfl, Or.inl rfl, id, fun _ h => Or.inl h⟩

theorem SegsRead.trans {b : Build} {segs : List ElfSeg} {s1 s2 s3 : AState} (h1 : SegsRead b segs s1 s2)
    (h2 : SegsRead b segs s2 s3) : SegsRead b segs s1 s3 := by
  refine ⟨h1.touch.trans h2.touch, h2.sections.trans h1.sections, h2.relocations.trans h1.relocations,
    h2.relative.trans h1.relative, ?_, fun h => h2.segments (h1.segments h), ?_⟩
  · rcases h2.tls with h | h
    · rcases h1.tls with h' | ⟨seg, x, y, z⟩
      · exact Or.inl (h.trans h')
      · exact Or.inr ⟨seg, x, y, h.trans z⟩
    · exact Or.inr h
  · intro seg hs
    rcases h2.loads seg hs with h | h
    · exact h1.loads seg h
    · exact Or.inr h

theorem SegsRead.flag (b : Build) (segs : List ElfSeg) (st : AState) (f : List SectionFlag) (g : Addr) :
    SegsRead b segs st { st with section_flags := f, global_offset_table := g } :=
  ⟨.refl, rfl, rfl, rfl, Or.inl rfl, id, fun _ h => Or.inl h⟩

theorem addFlagSized_eq (st : AState) (flag : BitVec 16) (start size : Addr) :
    ∃ f, st.addFlagSized flag start size = { st with section_flags := f } := by
  unfold AState.addFlagSized
  split
  · exact ⟨_, rfl⟩
  · exact ⟨_, rfl⟩

theorem readDynamic_eq (st : AState) (seg : ElfSeg) :
    ∃ f g, readDynamic st seg = { st with section_flags := f, global_offset_table := g } := by
  have hg : ∀ (l : List (DynTag × Addr)) (st : AState), ∃ g, l.foldl
      (fun st e => if e.1 = .pltgot then { st with global_offset_table := e.2 } else st) st =
        { st with global_offset_table := g } := by
    intro l
    induction l with
    | nil => intro st; exact ⟨_, rfl⟩
    | cons e l ih =>
      intro st
      rw [List.foldl_cons]
      obtain ⟨g, h⟩ := ih (if e.1 = .pltgot then { st with global_offset_table := e.2 } else st)
      rw [h]
      split
      · exact ⟨g, rfl⟩
      · exact ⟨g, rfl⟩
  unfold readDynamic
  simp only
  obtain ⟨g, e0⟩ := hg seg.dynamic (st.addFlag SECTION_DYNAMIC seg.virt_addr seg.virt_size)
  rw [e0]
  obtain ⟨f1, e1⟩ := addFlagSized_eq { st.addFlag SECTION_DYNAMIC seg.virt_addr seg.virt_size with global_offset_table := g }
    SECTION_RELOC (seg.dynamic.foldl DynInfo.step {}).rel (seg.dynamic.foldl DynInfo.step {}).relsz
  rw [e1]
  generalize (seg.dynamic.foldl DynInfo.step {}) = i
  have key : ∀ (s : AState), (∃ f g, s = { st with section_flags := f, global_offset_table := g }) → ∀ fl a z,
      ∃ f g, s.addFlagSized fl a z = { st with section_flags := f, global_offset_table := g } := by
    rintro s ⟨f, g, rfl⟩ fl a z
    obtain ⟨f', e⟩ := addFlagSized_eq { st with section_flags := f, global_offset_table := g } fl a z
    exact ⟨f', g, e⟩
  exact key _ (key _ (key _ (key _ (key _ ⟨f1, g, rfl⟩ _ _ _) _ _ _) _ _ _) _ _ _) _ _ _

theorem readSegment_read {b : Build} {segs : List ElfSeg} {seg : ElfSeg} (hs : seg ∈ segs) {st st' : AState}
    (h : readSegment b st seg = .ok st') : SegsRead b segs st st' := by
  unfold readSegment at h
  split at h
  · rename_i ht
    replace h := (massert_bind_ok h).2
    cases h
    exact ⟨.refl, rfl, rfl, rfl, Or.inr ⟨seg, hs, ht, rfl⟩, id, fun _ h => Or.inl h⟩
  · rename_i ht
    have h0 : SegsRead b segs st { st with segments := (Tree.insert st.segments seg).1 } := by
      refine ⟨.refl, rfl, rfl, rfl, Or.inl rfl, fun h => sorted_insert h _, fun x hx => ?_⟩
      rcases mem_insert.mp hx with h | ⟨rfl, _⟩
      · exact Or.inl h
      · exact Or.inr ⟨hs, ht⟩
    simp only at h
    split at h
    · cases h1 : AState.insertSymbol b { st with segments := (Tree.insert st.segments seg).1 }
        { address := seg.virt_addr + seg.size, section_address := seg.virt_addr, writeable := seg.writeable,
          executable := seg.executable } with
      | error e => rw [h1] at h; cases h
      | ok st1 =>
        rw [h1] at h
        obtain ⟨t, e1, e2⟩ := stInsert_ok h1
        cases h
        subst e2
        exact h0.trans ⟨.one (mark_sizeless _ rfl rfl rfl rfl) e1, rfl, rfl, rfl, Or.inl rfl, id, fun _ h => Or.inl h⟩
    · cases h; exact h0
  · cases h
    obtain ⟨f, g, e⟩ := readDynamic_eq st seg
    rw [e]
    exact .flag ..
  · cases h; exact .flag ..
  · obtain ⟨t, e1, e2⟩ := stInsert_ok h
    subst e2
    exact ⟨.one (mark_sizeless _ rfl rfl rfl rfl) e1, rfl, rfl, rfl, Or.inl rfl, id, fun _ h => Or.inl h⟩
  · cases h; exact .flag ..
  · cases h; exact .refl ..

theorem readSegments_read {b : Build} {segs : List ElfSeg} {st st' : AState} (h : readSegments b st segs = .ok st') :
    SegsRead b segs st st' :=
  foldlM_rel (SegsRead b segs) (.refl b segs) (fun _ _ _ h1 h2 => h1.trans h2) (fun _ hx _ _ h => readSegment_read hx h) h

/-- Arguments that stem from a symbol table. -/
def FromTable (secs : List ElfSec) (tls : Option ElfSeg) (a : InsertArgs) : Prop :=
  ∃ tbl ∈ secs, (tbl.type = .symtab ∨ tbl.type = .dynsym) ∧ tbl.size ≠ 0 ∧ ∃ sym ∈ tbl.symbols, a ∈ symOps secs tls sym

/-- Sections that are taken over. -/
def loadedSections (secs : List ElfSec) : List ElfSec := secs.filter (fun s => s.allocate && decide (s.size ≠ 0))

/-- The result of reading the sections `pre` of the file with sections `secs`. -/
structure SecsRead (b : Build) (secs : List ElfSec) (add : Bool) (st : AState) (pre : List ElfSec) (st' : AState) : Prop where
  touch : Touch b (FromTable secs st.tls_segment) False st.symbols st'.symbols
  tls : st'.tls_segment = st.tls_segment
  segments : st'.segments = st.segments
  sections : st'.sections = if add then (loadedSections pre).foldl (fun t x => (Tree.insert t x).1) st.sections else st.sections
  relocations : Sorted st.relocations → Sorted st'.relocations
  relative : Sorted st.relative_relocations → Sorted st'.relative_relocations
  via : ∀ tbl ∈ pre, (tbl.type = .symtab ∨ tbl.type = .dynsym) → tbl.size ≠ 0 → ∀ sym ∈ tbl.symbols,
    ∀ a ∈ symOps secs st.tls_segment sym, Via b (FromTable secs st.tls_segment) st.symbols a st'.symbols

theorem readSymbols_via {b : Build} {secs : List ElfSec} {tbl : ElfSec} (hm : tbl ∈ secs) (hz : tbl.size ≠ 0)
    (ht : tbl.type = .symtab ∨ tbl.type = .dynsym) {st st' : AState} (h : tbl.symbols.foldlM (readSymbol b secs) st = .ok st') :
    st' = { st with symbols := st'.symbols } ∧ Touch b (FromTable secs st.tls_segment) False st.symbols st'.symbols ∧
      ∀ sym ∈ tbl.symbols, ∀ a ∈ symOps secs st.tls_segment sym,
        Via b (FromTable secs st.tls_segment) st.symbols a st'.symbols := by
  obtain ⟨t, e1, e2⟩ := readSymbols_ops h
  subst e2
  have hA : ∀ a ∈ tbl.symbols.flatMap (symOps secs st.tls_segment), FromTable secs st.tls_segment a := by
    intro a ha
    obtain ⟨sym, hs, h⟩ := List.mem_flatMap.mp ha
    exact ⟨tbl, hm, ht, hz, sym, hs, h⟩
  exact ⟨rfl, Touch.all _ hA e1, fun sym hs a ha => insertAll_via _ hA e1 a (List.mem_flatMap.mpr ⟨sym, hs, ha⟩)⟩

theorem readSection_read {b : Build} {secs : List ElfSec} {add : Bool} {st0 : AState} {pre : List ElfSec} {sec : ElfSec}
    (hm : sec ∈ secs) {st st' : AState} (h0 : SecsRead b secs add st0 pre st)
    (h : readSection b secs add st sec = .ok st') : SecsRead b secs add st0 (pre ++ [sec]) st' := by
  unfold readSection at h
  by_cases hz : sec.size = 0
  · rw [if_pos hz] at h
    cases h
    refine ⟨h0.touch, h0.tls, h0.segments, ?_, h0.relocations, h0.relative, ?_⟩
    · have : loadedSections (pre ++ [sec]) = loadedSections pre := by
        unfold loadedSections
        rw [List.filter_append]
        simp [hz]
      rw [this]
      exact h0.sections
    · intro tbl htbl h1 h2
      rcases List.mem_append.mp htbl with h | h
      · exact h0.via tbl h h1 h2
      · rw [List.mem_singleton.mp h] at h2
        exact absurd hz h2
  · rw [if_neg hz] at h
    simp only at h
    -- the state after the registration
    generalize hst1 : (if (sec.allocate && add) = true then
        match secFlag sec.type with
        | some flag => (if (sec.allocate && add) = true then addSection st sec else st).addFlag flag sec.virt_addr sec.size
        | none => (if (sec.allocate && add) = true then addSection st sec else st)
      else (if (sec.allocate && add) = true then addSection st sec else st)) = st1 at h
    have e1 : ∃ f ss, st1 = { st with section_flags := f, sections := ss } ∧
        ss = if add then (loadedSections (pre ++ [sec])).foldl (fun t x => (Tree.insert t x).1) st0.sections
          else st0.sections := by
      have hsec := h0.sections
      have hl : loadedSections (pre ++ [sec]) = loadedSections pre ++ (if sec.allocate then [sec] else []) := by
        unfold loadedSections
        rw [List.filter_append, List.filter_cons, decide_eq_true hz, Bool.and_true]
        rfl
      rw [hl, List.foldl_append]
      cases add with
      | false =>
        rw [Bool.and_false] at hst1
        simp only [Bool.false_eq_true, if_false] at hst1 hsec ⊢
        exact ⟨st.section_flags, st.sections, hst1.symm, hsec⟩
      | true =>
        rw [Bool.and_true] at hst1
        simp only [if_true] at hsec ⊢
        by_cases ha : sec.allocate = true
        · rw [if_pos ha, if_pos ha] at hst1
          rw [if_pos ha]
          have ha2 : ∃ f, addSection st sec = { st with section_flags := f, sections := (Tree.insert st.sections sec).1 } := by
            unfold addSection
            simp only
            split
            · exact ⟨_, rfl⟩
            · split <;> exact ⟨_, rfl⟩
          obtain ⟨f, e⟩ := ha2
          rw [e] at hst1
          rw [List.foldl_cons, List.foldl_nil, ← hsec, ← hst1]
          split
          · exact ⟨_, _, rfl, rfl⟩
          · exact ⟨_, _, rfl, rfl⟩
        · rw [if_neg ha, if_neg ha] at hst1
          rw [if_neg ha, List.foldl_nil, ← hsec, ← hst1]
          exact ⟨st.section_flags, st.sections, rfl, rfl⟩
    obtain ⟨f, ss, e1, e2⟩ := e1
    -- no table
    have plain : ∀ st2 : AState, st2.symbols = st.symbols → st2.tls_segment = st.tls_segment → st2.segments = st.segments →
        st2.sections = st1.sections → (Sorted st.relocations → Sorted st2.relocations) →
        (Sorted st.relative_relocations → Sorted st2.relative_relocations) → sec.type ≠ .symtab → sec.type ≠ .dynsym →
        SecsRead b secs add st0 (pre ++ [sec]) st2 := by
      intro st2 g1 g2 g3 g4 g5 g6 n1 n2
      refine ⟨by rw [g1]; exact h0.touch, g2.trans h0.tls, g3.trans h0.segments, ?_, fun h => g5 (h0.relocations h),
        fun h => g6 (h0.relative h), ?_⟩
      · rw [g4, e1]; exact e2
      · intro tbl htbl h1 h2
        rw [g1]
        rcases List.mem_append.mp htbl with h | h
        · exact h0.via tbl h h1 h2
        · rw [List.mem_singleton.mp h] at h1
          rcases h1 with h1 | h1
          · exact absurd h1 n1
          · exact absurd h1 n2
    have table : sec.type = .symtab ∨ sec.type = .dynsym → sec.symbols.foldlM (readSymbol b secs) st1 = .ok st' →
        SecsRead b secs add st0 (pre ++ [sec]) st' := by
      intro ht h
      obtain ⟨x1, x2, x3⟩ := readSymbols_via hm hz ht h
      have htls : st1.tls_segment = st0.tls_segment := by rw [e1]; exact h0.tls
      have hsy : st1.symbols = st.symbols := by rw [e1]
      rw [htls, hsy] at x2 x3
      refine ⟨h0.touch.trans x2, ?_, ?_, ?_, ?_, ?_, ?_⟩
      · rw [x1]; exact htls
      · rw [x1, e1]; exact h0.segments
      · rw [x1, e1]; exact e2
      · rw [x1, e1]; exact h0.relocations
      · rw [x1, e1]; exact h0.relative
      · intro tbl htbl h1 h2 sym hsym a ha
        rcases List.mem_append.mp htbl with h | h
        · exact (h0.via tbl h h1 h2 sym hsym a ha).after x2
        · rw [List.mem_singleton.mp h] at hsym
          exact (x3 sym hsym a ha).before h0.touch
    have hsort : ∀ l : List ElfRel, Sorted st.relocations → Sorted (l.foldl (fun t r => (Tree.insert t r).1) st1.relocations) := by
      intro l h
      refine sorted_foldl_insert _ ?_
      rw [e1]; exact h
    have hsort2 : ∀ l : List Addr, Sorted st.relative_relocations →
        Sorted (l.foldl (fun t r => (Tree.insert t r).1) st1.relative_relocations) := by
      intro l h
      refine sorted_foldl_insert _ ?_
      rw [e1]; exact h
    have p0 : st1.symbols = st.symbols := by rw [e1]
    have p1 : st1.tls_segment = st.tls_segment := by rw [e1]
    have p2 : st1.segments = st.segments := by rw [e1]
    have p3 : st1.relocations = st.relocations := by rw [e1]
    have p4 : st1.relative_relocations = st.relative_relocations := by rw [e1]
    split at h
    · rename_i ht
      cases h
      exact plain _ p0 p1 p2 rfl (hsort _) (fun h => p4 ▸ h) (by rw [ht]; decide) (by rw [ht]; decide)
    · rename_i ht
      cases h
      exact plain _ p0 p1 p2 rfl (hsort _) (fun h => p4 ▸ h) (by rw [ht]; decide) (by rw [ht]; decide)
    · rename_i ht
      cases h
      exact plain _ p0 p1 p2 rfl (fun h => p3 ▸ h) (hsort2 _) (by rw [ht]; decide) (by rw [ht]; decide)
    · rename_i ht
      exact table (Or.inl ht) h
    · rename_i ht
      exact table (Or.inr ht) h
    · cases h
      rename_i n1 n2
      exact plain _ p0 p1 p2 rfl (fun h => p3 ▸ h) (fun h => p4 ▸ h) n1 n2

theorem readSections_read {b : Build} {add : Bool} {secs : List ElfSec} {st st' : AState}
    (h : readSections b add st secs = .ok st') : SecsRead b secs add st secs st' := by
  refine foldlM_prefix (SecsRead b secs add st) ?_ ?_ h
  · refine ⟨.refl, rfl, rfl, ?_, id, id, fun _ h => by cases h⟩
    cases add <;> rfl
  · intro pre x post a a' e hp hx
    exact readSection_read (e ▸ List.mem_append_right _ List.mem_cons_self) hp hx

theorem readTargets_touch {b : Build} {st st' : AState} (h : readTargets b st = .ok st') :
    st' = { st with symbols := st'.symbols } ∧ Touch b Sizeless False st.symbols st'.symbols := by
  unfold readTargets at h
  have trans : ∀ x y z : AState, (y = { x with symbols := y.symbols } ∧ Touch b Sizeless False x.symbols y.symbols) →
      (z = { y with symbols := z.symbols } ∧ Touch b Sizeless False y.symbols z.symbols) →
      (z = { x with symbols := z.symbols } ∧ Touch b Sizeless False x.symbols z.symbols) := by
    rintro x y z ⟨e1, t1⟩ ⟨e2, t2⟩
    refine ⟨?_, t1.trans t2⟩
    rw [e2, e1]
  cases h1 : st.relocations.foldlM (readRelocation b) st with
  | error e => rw [h1] at h; cases h
  | ok st1 =>
    rw [h1] at h
    refine trans _ st1 _ ?_ ?_
    · refine foldlM_rel (fun x y : AState => y = { x with symbols := y.symbols } ∧ Touch b Sizeless False x.symbols y.symbols)
        (fun _ => ⟨rfl, .refl⟩) trans ?_ h1
      intro rel _ x y hx
      unfold readRelocation at hx
      split at hx
      · cases hm : mderef b (Tree.floor x.sections rel.addend) with
        | error e => rw [hm] at hx; cases hx
        | ok sec =>
          rw [hm] at hx
          obtain ⟨t, e1, e2⟩ := stInsert_ok (massert_bind_ok (massert_bind_ok hx).2).2
          subst e2
          exact ⟨rfl, .one (plain_sizeless _ _) e1⟩
      · cases hx; exact ⟨rfl, .refl⟩
    · refine foldlM_rel (fun x y : AState => y = { x with symbols := y.symbols } ∧ Touch b Sizeless False x.symbols y.symbols)
        (fun _ => ⟨rfl, .refl⟩) trans ?_ h
      intro off _ x y hx
      unfold readRelative at hx
      cases hm : mderef b (Tree.floor x.sections off) with
      | error e => rw [hm] at hx; cases hx
      | ok sec =>
        simp only [bind, Except.bind, hm] at hx
        cases hb : readBytes sec.data (off - sec.virt_addr) 8 with
        | error e => rw [hb] at hx; cases hx
        | ok bytes =>
          simp only [hb] at hx
          split at hx
          · obtain ⟨t, e1, e2⟩ := stInsert_ok hx
            subst e2
            exact ⟨rfl, .one (plain_sizeless _ _) e1⟩
          · cases hx; exact ⟨rfl, .refl⟩

/-- The arguments of all insertions during the analysis. -/
def Source (elf : Elf) (dbgsym : Option Elf) (tls : Option ElfSeg) (a : InsertArgs) : Prop :=
  Sizeless a ∨ FromTable elf.sections tls a ∨ ∃ d, dbgsym = some d ∧ FromTable d.sections tls a

/-- The state before the flags are set and the arguments of all insertions. -/
structure Gathered (env : Env) (fl : AnalyzeFlags) (elf : Elf) (dbgsym : Option Elf) (st1 st : AState) (t : SymTree) : Prop where
  read : Touch env.build (Source elf dbgsym st.tls_segment) False [] st1.symbols
  search : SearchDone env fl st1 st1.sections t
  touch : Touch env.build Sizeless (Naming fl st1.sections) st1.symbols t
  found : findFunctions env fl st1 = .ok { st1 with symbols := t }
  result : st = { st1 with symbols := addFlags elf.entry st1.section_flags t }
  tls : ∀ seg, st.tls_segment = some seg → seg ∈ elf.segments ∧ seg.type = .tls
  sections : st.sections = Tree.ofList (loadedSections elf.sections)
  segments : Sorted st.segments
  loads : ∀ seg ∈ st.segments, seg ∈ elf.segments ∧ seg.type = .load
  relocations : Sorted st.relocations
  relative : Sorted st.relative_relocations
  via : ∀ d, (d = elf ∨ dbgsym = some d) → ∀ tbl ∈ d.sections, (tbl.type = .symtab ∨ tbl.type = .dynsym) → tbl.size ≠ 0 →
    ∀ sym ∈ tbl.symbols, ∀ a ∈ symOps d.sections st.tls_segment sym,
      Via env.build (Source elf dbgsym st.tls_segment) [] a st1.symbols

theorem gather_ok {env : Env} {fl : AnalyzeFlags} {elf : Elf} {dbgsym : Option Elf} {st : AState}
    (h : gather env fl elf dbgsym = .ok st) : ∃ st1 t, Gathered env fl elf dbgsym st1 st t := by
  unfold gather at h
  cases h1 : readSegments env.build {} elf.segments with
  | error e => rw [h1] at h; cases h
  | ok s1 =>
    simp only [bind, Except.bind, h1] at h
    cases h2 : readSections env.build true s1 elf.sections with
    | error e => rw [h2] at h; cases h
    | ok s2 =>
      simp only [h2] at h
      have r1 := readSegments_read h1
      have r2 := readSections_read h2
      -- debug symbols
      obtain ⟨s3, h3, r3⟩ : ∃ s3, readDebug env.build s2 dbgsym = .ok s3 ∧ (Touch env.build (Source elf dbgsym s2.tls_segment) False s2.symbols s3.symbols ∧
          s3.tls_segment = s2.tls_segment ∧ s3.segments = s2.segments ∧ s3.sections = s2.sections ∧
          (Sorted s2.relocations → Sorted s3.relocations) ∧ (Sorted s2.relative_relocations → Sorted s3.relative_relocations) ∧
          ∀ d, dbgsym = some d → ∀ tbl ∈ d.sections, (tbl.type = .symtab ∨ tbl.type = .dynsym) → tbl.size ≠ 0 →
            ∀ sym ∈ tbl.symbols, ∀ a ∈ symOps d.sections s2.tls_segment sym,
              Via env.build (Source elf dbgsym s2.tls_segment) s2.symbols a s3.symbols) := by
        cases dbgsym with
        | none => exact ⟨s2, rfl, .refl, rfl, rfl, rfl, id, id, fun d hd => by cases hd⟩
        | some d =>
          cases h3 : readSections env.build false s2 d.sections with
          | error e => simp only [readDebug, h3] at h; cases h
          | ok s3 =>
            have r3 := readSections_read h3
            have hm : ∀ a, FromTable d.sections s2.tls_segment a → Source elf (some d) s2.tls_segment a :=
              fun a ha => Or.inr (Or.inr ⟨d, rfl, ha⟩)
            refine ⟨s3, h3, r3.touch.mono hm, r3.tls, r3.segments, r3.sections, r3.relocations, r3.relative, ?_⟩
            intro d' hd
            cases hd
            intro tbl g1 g2 g3 sym g4 a g5
            exact (r3.via tbl g1 g2 g3 sym g4 a g5).mono hm
      simp only [h3] at h
      obtain ⟨t3, q1, q2, q3, q4, q5, q6⟩ := r3
      cases h4 : readTargets env.build s3 with
      | error e => rw [h4] at h; cases h
      | ok s4 =>
        simp only [h4] at h
        cases h5 : findFunctions env fl s4 with
        | error e => rw [h5] at h; cases h
        | ok s5 =>
          simp only [h5] at h
          obtain ⟨e4, t4⟩ := readTargets_touch h4
          have htls : s4.tls_segment = s1.tls_segment := by rw [e4]; exact q1.trans r2.tls
          have m1 : ∀ tls a, Sizeless a → Source elf dbgsym tls a := fun tls a ha => Or.inl ha
          have m2 : ∀ tls a, FromTable elf.sections tls a → Source elf dbgsym tls a := fun tls a ha => Or.inr (Or.inl ha)
          have u1 : Touch env.build (Source elf dbgsym s4.tls_segment) False [] s1.symbols := r1.touch.mono (m1 _)
          have u2 : Touch env.build (Source elf dbgsym s4.tls_segment) False s1.symbols s2.symbols := by
            rw [htls]; exact r2.touch.mono (m2 _)
          have u3 : Touch env.build (Source elf dbgsym s4.tls_segment) False s2.symbols s3.symbols := by
            rw [htls, ← r2.tls]; exact t3
          have u4 : Touch env.build (Source elf dbgsym s4.tls_segment) False s3.symbols s4.symbols := t4.mono (m1 _)
          have hread := (u1.trans u2).trans (u3.trans u4)
          have hs4 : Sorted s4.symbols := hread.sorted sorted_nil
          obtain ⟨t, e5, hD⟩ := findFunctions_done hs4 h5
          obtain ⟨_, t5⟩ := findFunctions_touch h5
          cases h
          subst e5
          refine ⟨s4, t, ⟨hread, hD, t5, h5, rfl, ?_, ?_, ?_, ?_, ?_, ?_, ?_⟩⟩
          · intro seg hseg
            have hseg' : s4.tls_segment = some seg := hseg
            rw [htls] at hseg'
            rcases r1.tls with h | ⟨x, hx, hxt, hxe⟩
            · rw [h] at hseg'; cases hseg'
            · rw [hxe] at hseg'
              cases hseg'
              exact ⟨hx, hxt⟩
          · show s4.sections = _
            rw [e4]
            show s3.sections = _
            rw [q3, r2.sections, r1.sections]
            rfl
          · show Sorted s4.segments
            rw [e4]
            show Sorted s3.segments
            rw [q2, r2.segments]
            exact r1.segments sorted_nil
          · intro seg hseg
            have hseg' : seg ∈ s4.segments := hseg
            rw [e4] at hseg'
            replace hseg' : seg ∈ s3.segments := hseg'
            rw [q2, r2.segments] at hseg'
            rcases r1.loads seg hseg' with h | h
            · cases h
            · exact h
          · show Sorted s4.relocations
            rw [e4]
            exact q4 (r2.relocations (by rw [r1.relocations]; exact sorted_nil))
          · show Sorted s4.relative_relocations
            rw [e4]
            exact q5 (r2.relative (by rw [r1.relative]; exact sorted_nil))
          · intro d hd tbl g1 g2 g3 sym g4 a g5
            replace g5 : a ∈ symOps d.sections s4.tls_segment sym := g5
            show Via env.build (Source elf dbgsym s4.tls_segment) [] a s4.symbols
            rcases hd with rfl | hd
            · rw [htls] at g5
              have := (r2.via tbl g1 g2 g3 sym g4 a g5).mono (m2 _)
              rw [← htls] at this
              exact (this.before u1).after (u3.trans u4)
            · rw [htls, ← r2.tls] at g5
              have := q6 d hd tbl g1 g2 g3 sym g4 a g5
              rw [r2.tls, ← htls] at this
              exact (this.before (u1.trans u2)).after u4

theorem foldl_insert_key {α : Type} [Keyed α] (l : List α) : ∀ {t : List α}, Sorted t → ∀ {x : α}, x ∈ t ∨ x ∈ l →
    ∃ y ∈ l.foldl (fun t x => (Tree.insert t x).1) t, Keyed.key y = Keyed.key x := by
  induction l with
  | nil =>
    intro t _ x hx
    rcases hx with h | h
    · exact ⟨x, h, rfl⟩
    · cases h
  | cons z l ih =>
    intro t ht x hx
    rw [List.foldl_cons]
    rcases hx with h | h
    · exact ih (sorted_insert ht z) (Or.inl ((mem_insert' ht).mpr (Or.inl h)))
    · rcases List.mem_cons.mp h with rfl | h
      · by_cases hn : ∀ y ∈ t, Keyed.key y ≠ Keyed.key x
        · exact ih (sorted_insert ht x) (Or.inl ((mem_insert' ht).mpr (Or.inr ⟨rfl, hn⟩)))
        · simp only [Classical.not_forall, Decidable.not_not] at hn
          obtain ⟨y, hy, e⟩ := hn
          obtain ⟨w, hw, e'⟩ := ih (sorted_insert ht x) (x := y) (Or.inl ((mem_insert' ht).mpr (Or.inl hy)))
          exact ⟨w, hw, e'.trans e⟩
      · exact ih (sorted_insert ht z) (Or.inr h)

theorem ofList_key {α : Type} [Keyed α] {l : List α} {x : α} (h : x ∈ l) : ∃ y ∈ Tree.ofList l, Keyed.key y = Keyed.key x :=
  foldl_insert_key l sorted_nil (Or.inr h)

/-! ### Identification -/

theorem flagSymbol_fresh {fs : List SectionFlag} {s : Symbol} (h : Fresh s) : Fresh (flagSymbol fs s) := by
  have key : ∀ (fs : List SectionFlag) (s : Symbol), Fresh s → Fresh (fs.foldl regionFlag s) := by
    intro fs
    induction fs with
    | nil => intro s h; exact h
    | cons f fs ih =>
      intro s h
      rw [List.foldl_cons]
      refine ih _ ?_
      unfold regionFlag
      split
      · exact ⟨h.rels, h.ids, h.ident, h.deps, h.refs⟩
      · exact h
  unfold flagSymbol
  simp only
  refine key _ _ ?_
  split
  · exact ⟨h.rels, h.ids, h.ident, h.deps, h.refs⟩
  · split
    · exact ⟨h.rels, h.ids, h.ident, h.deps, h.refs⟩
    · exact h

/-- Symbols with the same address, name, type and binding; the second one is at least as large. -/
structure Enlarged (s s' : Symbol) : Prop where
  address : s'.address = s.address
  name : s'.name = s.name
  type : s'.type = s.type
  bind : s'.bind = s.bind
  size : s.size.toNat ≤ s'.size.toNat

theorem Enlarged.refl (s : Symbol) : Enlarged s s := ⟨rfl, rfl, rfl, rfl, Nat.le_refl _⟩

theorem Enlarged.trans {a b c : Symbol} (h : Enlarged a b) (h' : Enlarged b c) : Enlarged a c :=
  ⟨h'.address.trans h.address, h'.name.trans h.name, h'.type.trans h.type, h'.bind.trans h.bind, Nat.le_trans h.size h'.size⟩

theorem flagSymbol_enlarged (fs : List SectionFlag) (s : Symbol) : Enlarged s (flagSymbol fs s) := by
  have key : ∀ (fs : List SectionFlag) (s : Symbol), Enlarged s (fs.foldl regionFlag s) := by
    intro fs
    induction fs with
    | nil => intro s; exact .refl s
    | cons f fs ih =>
      intro s
      rw [List.foldl_cons]
      refine Enlarged.trans ?_ (ih _)
      unfold regionFlag
      split
      · exact ⟨rfl, rfl, rfl, rfl, Nat.le_refl _⟩
      · exact .refl s
  unfold flagSymbol
  simp only
  refine Enlarged.trans ?_ (key _ _)
  split
  · exact ⟨rfl, rfl, rfl, rfl, Nat.le_refl _⟩
  · split
    · exact ⟨rfl, rfl, rfl, rfl, Nat.le_refl _⟩
    · exact .refl s

theorem addFlags_sorted {entry : Addr} {fs : List SectionFlag} {t : SymTree} (h : Sorted t) : Sorted (addFlags entry fs t) := by
  unfold addFlags
  exact sorted_map_key (sorted_modify h _ (fun s => { s with flags := s.flags ||| SYMBOL_ENTRY }) (fun _ => rfl)) _
    (fun s => (flagSymbol_enlarged fs s).address)

theorem addFlags_enlarged {entry : Addr} {fs : List SectionFlag} {t : SymTree} {s : Symbol} (h : s ∈ t) :
    ∃ s' ∈ addFlags entry fs t, Enlarged s s' := by
  unfold addFlags
  refine ⟨_, List.mem_map_of_mem (List.mem_map_of_mem h), ?_⟩
  refine Enlarged.trans ?_ (flagSymbol_enlarged fs _)
  split
  · exact ⟨rfl, rfl, rfl, rfl, Nat.le_refl _⟩
  · exact .refl s

theorem addFlags_fresh {entry : Addr} {fs : List SectionFlag} {t : SymTree} (h : ∀ s ∈ t, Fresh s) :
    ∀ s ∈ addFlags entry fs t, Fresh s := by
  intro s hs
  unfold addFlags at hs
  obtain ⟨s1, h1, rfl⟩ := List.mem_map.mp hs
  obtain ⟨s0, h0, rfl⟩ := List.mem_map.mp h1
  refine flagSymbol_fresh ?_
  have := h s0 h0
  split
  · exact ⟨this.rels, this.ids, this.ident, this.deps, this.refs⟩
  · exact this

theorem fresh_symsOK {t : SymTree} (hs : Sorted t) (h : ∀ s ∈ t, Fresh s) : SymsOK t :=
  ⟨hs, fun s hm => by rw [(h s hm).rels]; exact sorted_nil⟩

theorem gathered_facts {env : Env} {fl : AnalyzeFlags} {elf : Elf} {dbgsym : Option Elf} {st1 st : AState} {t : SymTree}
    (h : Gathered env fl elf dbgsym st1 st t) : Sorted st1.symbols ∧ Sorted t ∧ SymsOK st.symbols ∧ ∀ s ∈ st.symbols, Fresh s := by
  have h1 : Sorted st1.symbols := h.read.sorted sorted_nil
  have f1 : ∀ s ∈ st1.symbols, Fresh s := h.read.fresh sorted_nil (fun _ h => by cases h)
  have h2 : Sorted t := h.touch.sorted h1
  have f2 : ∀ s ∈ t, Fresh s := h.touch.fresh h1 f1
  have f3 : ∀ s ∈ st.symbols, Fresh s := by rw [h.result]; exact addFlags_fresh f2
  refine ⟨h1, h2, fresh_symsOK ?_ f3, f3⟩
  rw [h.result]
  exact addFlags_sorted h2

theorem recon_enlarged {env : Env} {st : AState} {s s' : Symbol} (h : ReconAs env st s s') :
    Enlarged s s' ∧ s'.offset_ids = s.offset_ids ∧ s'.deps = s.deps ∧ s'.id = s.id ∧ s'.refs = s.refs := by
  have had := fun sec => adoptSection_same sec s
  cases h with
  | plt sec hf hp he =>
    subst he
    have a := (had sec).1
    exact ⟨⟨a.address, a.name, a.type, a.bind, by rw [(had sec).2.1]; exact Nat.le_refl _⟩, a.offset_ids, a.deps, a.id,
      (had sec).2.2.2.2.1⟩
  | code sec last s1 hf hp h1 h2 =>
    have a := (had sec).1
    obtain ⟨n, e1, e2, _⟩ := sizeSymbol_ok h1
    rw [reconstructCode_form h2, e1]
    rw [(had sec).2.1] at e2
    exact ⟨⟨a.address, a.name, a.type, a.bind, e2⟩, a.offset_ids, a.deps, a.id, (had sec).2.2.2.2.1⟩

theorem zip_mem_left {α β : Type} {R : α → β → Prop} {l : List α} {l' : List β} (h : Zip R l l') {x : α} (hx : x ∈ l) :
    ∃ y ∈ l', R x y := by
  induction h with
  | nil => cases hx
  | cons hr _ ih =>
    rcases List.mem_cons.mp hx with rfl | hx
    · exact ⟨_, List.mem_cons_self, hr⟩
    · obtain ⟨y, hy, h⟩ := ih hx
      exact ⟨y, List.mem_cons_of_mem _ hy, h⟩

theorem sorted_foldl_erase {l : List Addr} {t : SymTree} (h : Sorted t) : Sorted (l.foldl Tree.erase t) := by
  induction l generalizing t with
  | nil => exact h
  | cons x l ih => exact ih (h.filter _)

theorem hashedAs_sorted {env : Env} {fl : AnalyzeFlags} {st : AState} {l : List Symbol} {hs : List Hashed}
    (hr : ∀ s ∈ l, Sorted s.rels) (h : HashedAs env fl st l hs) (hsort : Sorted l) :
    Sorted (hs.map (finishSymbol env fl)) := by
  have key : Zip (fun s s' : Symbol => s'.address = s.address) l (hs.map (finishSymbol env fl)) := by
    clear hsort
    induction h with
    | nil => exact .nil
    | cons hx _ ih =>
      refine .cons ?_ (ih (fun s hs => hr s (List.mem_cons_of_mem _ hs)))
      rw [finishSymbol_address]
      exact (hashSymbol_same (hr _ List.mem_cons_self) hx).1.address
  exact zip_sorted (fun _ _ h => h) key hsort

theorem hashInternal_symsOK {env : Env} {fl : AnalyzeFlags} {st r : AState} (hok : SymsOK st.symbols)
    (h : hashInternal env fl st = .ok r) : SymsOK r.symbols := by
  refine ⟨?_, fun s hs => ?_⟩
  · unfold hashInternal at h
    cases h1 : st.symbols.reverse.foldlM (hashStep env fl st) {} with
    | error e => rw [h1] at h; cases h
    | ok L =>
      rw [h1] at h
      cases h
      obtain ⟨hs, ha, hd, _⟩ := hashLoop_ok st.symbols h1
      refine sorted_foldl_erase ?_
      rw [hd]
      exact hashedAs_sorted hok.rels ha hok.sorted
  · obtain ⟨_, hmem, _⟩ := hashInternal_ok hok h
    obtain ⟨i, s0, x, h1, h2, h3, rfl⟩ := (hmem s).mp hs
    rw [finish_used h3]
    exact (hashSymbol_same (hok.rels s0 (List.mem_of_getElem? h1)) h2).2.1

/-- The symbols after `hash_internal` in terms of the ones before. -/
theorem hashInternal_enlarged {env : Env} {fl : AnalyzeFlags} {st r : AState} (hok : SymsOK st.symbols)
    (h : hashInternal env fl st = .ok r) :
    (∀ s0 ∈ st.symbols, (∃ s ∈ r.symbols, Enlarged s0 s) ∨ (fl.keep_unused = false ∧ s0.name = none)) ∧
    (∀ s ∈ r.symbols, ∃ s0 ∈ st.symbols, Enlarged s0 s ∧ s.offset_ids = s0.offset_ids ∧ s.deps = s0.deps) := by
  obtain ⟨_, hmem, hall⟩ := hashInternal_ok hok h
  have grown : ∀ (i : Nat) s0 x, st.symbols[i]? = some s0 →
      hashSymbol env fl st (lastAddr (st.symbols.drop (i + 1))) s0 = .ok x →
      Enlarged s0 x.sym ∧ x.sym.offset_ids = s0.offset_ids ∧ x.sym.deps = s0.deps := by
    intro i s0 x hi hx
    obtain ⟨hsame, _, sec, s1, _, h6, _, h8, _⟩ := hashSymbol_same (hok.rels s0 (List.mem_of_getElem? hi)) hx
    obtain ⟨n, hn, hle, _⟩ := sizeSymbol_ok h8
    have hsize : x.sym.size = n := congrArg Symbol.size (h6.symm.trans hn)
    rw [(adoptSection_same sec s0).2.1] at hle
    exact ⟨⟨hsame.address, hsame.name, hsame.type, hsame.bind, by rw [hsize]; exact hle⟩, hsame.offset_ids, hsame.deps⟩
  constructor
  · intro s0 hs
    obtain ⟨i, hi⟩ := List.getElem?_of_mem hs
    obtain ⟨x, hx⟩ := hall i s0 hi
    have g := (grown i s0 x hi hx).1
    cases hu : unusedSymbol fl x with
    | false =>
      left
      refine ⟨_, (hmem _).mpr ⟨i, s0, x, hi, hx, hu, rfl⟩, ?_⟩
      rw [finish_used hu]
      exact ⟨g.address, g.name, g.type, g.bind, g.size⟩
    | true =>
      right
      unfold unusedSymbol at hu
      simp only [Bool.and_eq_true, Bool.not_eq_true'] at hu
      refine ⟨hu.1.1.1.1.2, ?_⟩
      have := hu.1.1.1.2
      rw [g.name] at this
      simpa using this
  · intro s hs
    obtain ⟨i, s0, x, h1, h2, h3, rfl⟩ := (hmem s).mp hs
    obtain ⟨g, g1, g2⟩ := grown i s0 x h1 h2
    refine ⟨s0, List.mem_of_getElem? h1, ?_⟩
    rw [finish_used h3]
    exact ⟨⟨g.address, g.name, g.type, g.bind, g.size⟩, g1, g2⟩

/-- The steps of the identification. -/
structure Identified (env : Env) (fl : AnalyzeFlags) (st s1 s2 s3 r : AState) : Prop where
  first : (fl.reconstruct = true ∧ reconstruct env st = .ok s1) ∨ (fl.reconstruct = false ∧ s1 = st)
  same1 : s1 = { st with symbols := s1.symbols }
  zip1 : Zip (fun x y => Enlarged x y ∧ y.offset_ids = x.offset_ids ∧ y.deps = x.deps ∧ y.id = x.id ∧ y.refs = x.refs)
    st.symbols s1.symbols
  ok1 : SymsOK s1.symbols
  internal : hashInternal env fl s1 = .ok s2
  same2 : s2 = { st with symbols := s2.symbols }
  ok2 : SymsOK s2.symbols
  external : hashExternal env s2 = .ok s3
  same3 : s3 = { st with symbols := s3.symbols }
  ok3 : SymsOK s3.symbols
  last : (fl.reconstruct = true ∧ functionOffsets env s3 = .ok r) ∨ (fl.reconstruct = false ∧ r = s3)
  ids : ∃ f, r = { st with symbols := s3.symbols.map (setIds f) }
  noIds : ∀ s ∈ s3.symbols, s.offset_ids = []
  noDeps : ∀ s ∈ s2.symbols, s.deps = []

theorem zip_refl {α : Type} {R : α → α → Prop} (h : ∀ x, R x x) (l : List α) : Zip R l l := by
  induction l with
  | nil => exact .nil
  | cons x l ih => exact .cons (h x) ih

theorem zip_mono {α β : Type} {R S : α → β → Prop} (h : ∀ x y, R x y → S x y) {l : List α} {l' : List β} (hz : Zip R l l') :
    Zip S l l' := by
  induction hz with
  | nil => exact .nil
  | cons hr _ ih => exact .cons (h _ _ hr) ih

theorem setIds_nil {t : SymTree} (h : ∀ s ∈ t, s.offset_ids = []) : t.map (setIds (fun _ => [])) = t := by
  conv => rhs; rw [← List.map_id t]
  refine List.map_congr_left (fun s hs => ?_)
  have := h s hs
  cases s
  simp_all [setIds]

theorem identify_ok {env : Env} {fl : AnalyzeFlags} {st r : AState} (hok : SymsOK st.symbols)
    (hnew : ∀ s ∈ st.symbols, Fresh s) (h : identify env fl st = .ok r) : ∃ s1 s2 s3, Identified env fl st s1 s2 s3 r := by
  unfold identify at h
  obtain ⟨s1, h1, first, same1, zip1, ok1⟩ : ∃ s1, (if fl.reconstruct then reconstruct env st else .ok st) = .ok s1 ∧
      ((fl.reconstruct = true ∧ reconstruct env st = .ok s1) ∨ (fl.reconstruct = false ∧ s1 = st)) ∧
      s1 = { st with symbols := s1.symbols } ∧
      Zip (fun x y => Enlarged x y ∧ y.offset_ids = x.offset_ids ∧ y.deps = x.deps ∧ y.id = x.id ∧ y.refs = x.refs)
        st.symbols s1.symbols ∧ SymsOK s1.symbols := by
    cases hr : fl.reconstruct with
    | false =>
      exact ⟨st, rfl, Or.inr ⟨rfl, rfl⟩, rfl, zip_refl (fun x => ⟨.refl x, rfl, rfl, rfl, rfl⟩) _, hok⟩
    | true =>
      cases h1 : reconstruct env st with
      | error e => simp only [hr, if_true, bind, Except.bind, h1] at h; cases h
      | ok s1 =>
        obtain ⟨e, z⟩ := reconstruct_ok h1
        exact ⟨s1, rfl, Or.inl ⟨rfl, rfl⟩, e, zip_mono (fun x y h => recon_enlarged h) z, reconstruct_symsOK hok h1⟩
  replace h : (hashInternal env fl s1).bind (fun s2 => (hashExternal env s2).bind
      (fun s3 => if fl.reconstruct then functionOffsets env s3 else .ok s3)) = .ok r := by
    rcases first with ⟨e, e'⟩ | ⟨e, e'⟩
    · simp only [e, if_true, bind, Except.bind, e'] at h ⊢
      exact h
    · subst e'
      simp only [e, Bool.false_eq_true, if_false, bind, Except.bind] at h ⊢
      exact h
  cases h2 : hashInternal env fl s1 with
  | error e => rw [h2] at h; cases h
  | ok s2 =>
    simp only [h2, Except.bind] at h
    cases h3 : hashExternal env s2 with
    | error e => rw [h3] at h; cases h
    | ok s3 =>
      simp only [h3] at h
      have ok2 := hashInternal_symsOK ok1 h2
      obtain ⟨e2, _⟩ := hashInternal_ok ok1 h2
      have e3 := hashExternal_closed ok2.sorted h3
      have same2 : s2 = { st with symbols := s2.symbols } := by rw [e2, same1]
      have same3 : s3 = { st with symbols := s3.symbols } := by rw [e3, same2]
      have facts2 : ∀ s ∈ s2.symbols, s.offset_ids = [] ∧ s.deps = [] := by
        intro s hs
        obtain ⟨x1, hx1, _, i1, d1⟩ := (hashInternal_enlarged ok1 h2).2 s hs
        obtain ⟨x0, hx0, _, i0, d0, _⟩ := zip_mem_right zip1 hx1
        exact ⟨i1.trans (i0.trans (hnew x0 hx0).ids), d1.trans (d0.trans (hnew x0 hx0).deps)⟩
      have es : s3.symbols = s2.symbols.map (extSym env s2.global_offset_table s2.symbols s2.symbols) := by rw [e3]
      have noIds : ∀ s ∈ s3.symbols, s.offset_ids = [] := by
        intro s hs
        rw [es] at hs
        obtain ⟨x, hx, rfl⟩ := List.mem_map.mp hs
        exact (facts2 x hx).1
      have ok3 : SymsOK s3.symbols := by
        refine ⟨?_, ?_⟩
        · rw [es]
          exact sorted_map_key ok2.sorted _ (fun _ => rfl)
        · intro s hs
          rw [es] at hs
          obtain ⟨x, hx, rfl⟩ := List.mem_map.mp hs
          exact ok2.rels x hx
      refine ⟨s1, s2, s3, first, same1, zip1, ok1, h2, same2, ok2, h3, same3, ok3, ?_, ?_, noIds, fun s hs => (facts2 s hs).2⟩
      · cases hr : fl.reconstruct with
        | false => rw [hr] at h; cases h; exact Or.inr ⟨rfl, rfl⟩
        | true => rw [hr] at h; exact Or.inl ⟨rfl, h⟩
      · cases hr : fl.reconstruct with
        | false =>
          rw [hr] at h
          cases h
          refine ⟨fun _ => [], ?_⟩
          rw [setIds_nil noIds]
          exact same3
        | true =>
          rw [hr] at h
          obtain ⟨f, e, _⟩ := functionOffsets_inv noIds (fun _ _ => True) (fun _ _ _ _ _ _ _ => trivial) trivial h
          refine ⟨f, e.trans ?_⟩
          rw [same3]

end Bean

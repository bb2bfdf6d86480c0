import Verif.Spec.FindFunctions
import Verif.Lemmas.Read
import Verif.Lemmas.Insert
import Verif.Lemmas.Map
/-
Lemmas on the search for functions.
-/
namespace Bean
open Tree Spec

/-- Induction over the processed part of a list. -/
theorem foldlM_prefix {α σ : Type} {f : σ → α → M σ} (P : List α → σ → Prop) {l : List α} {s s' : σ} (h0 : P [] s)
    (hstep : ∀ pre x post a a', l = pre ++ x :: post → P pre a → f a x = .ok a' → P (pre ++ [x]) a')
    (h : l.foldlM f s = .ok s') : P l s' := by
  suffices ∀ (post pre : List α) (a : σ), l = pre ++ post → P pre a → post.foldlM f a = .ok s' → P l s' from
    this l [] s rfl h0 h
  intro post
  induction post with
  | nil =>
    intro pre a he hp hf
    cases hf
    rw [he, List.append_nil]
    exact hp
  | cons x post ih =>
    intro pre a he hp hf
    rw [List.foldlM_cons] at hf
    cases h1 : f a x with
    | error e => rw [h1] at hf; cases hf
    | ok a' =>
      rw [h1] at hf
      exact ih (pre ++ [x]) a' (by rw [he]; simp) (hstep pre x post a a' he hp h1) hf

theorem split_snoc {α : Type} {pre p1 q : List α} {x y : α} (h : pre ++ [x] = p1 ++ y :: q) :
    (p1 = pre ∧ y = x ∧ q = []) ∨ ∃ q', q = q' ++ [x] ∧ pre = p1 ++ y :: q' := by
  rcases List.eq_nil_or_concat q with rfl | ⟨q', z, rfl⟩
  · have := List.append_inj' h rfl
    exact Or.inl ⟨this.1.symm, (List.cons.inj this.2).1.symm, rfl⟩
  · rw [List.concat_eq_append] at h ⊢
    right
    have h' : pre ++ [x] = (p1 ++ y :: q') ++ [z] := by rw [h]; simp
    have := List.append_inj' h' rfl
    exact ⟨q', by rw [(List.cons.inj this.2).1], this.1⟩

/-! ### Addresses of symbols -/

theorem hasSym_iff_find {t : SymTree} {k : Addr} : HasSym t k ↔ ∃ s, Tree.find t k = some s := by
  constructor
  · rintro ⟨s, hs, rfl⟩
    cases h : Tree.find t s.address with
    | some y => exact ⟨y, rfl⟩
    | none => exact absurd rfl (find_eq_none_iff.mp h s hs)
  · rintro ⟨s, hs⟩
    exact ⟨s, (find_mem hs).1, (find_mem hs).2⟩

theorem insertSymbol_has {b : Build} {t t' : SymTree} {a : InsertArgs} (hs : Sorted t) (h : insertSymbol b t a = .ok t') :
    Sorted t' ∧ ∀ k, HasSym t' k ↔ HasSym t k ∨ k = a.address := by
  obtain ⟨h1, h2, h3⟩ := insertSymbol_spec hs h
  refine ⟨h1, fun k => ?_⟩
  rw [hasSym_iff_find, hasSym_iff_find]
  by_cases hk : k = a.address
  · rw [hk, h2]
    exact ⟨fun _ => Or.inr rfl, fun _ => ⟨_, rfl⟩⟩
  · rw [h3 k hk]
    exact ⟨Or.inl, fun h => h.resolve_right hk⟩

theorem modify_has {t : SymTree} (hs : Sorted t) {f : Symbol → Symbol} (hf : ∀ s, (f s).address = s.address) (a : Addr) :
    Sorted (Tree.modify t a f) ∧ ∀ k, HasSym (Tree.modify t a f) k ↔ HasSym t k := by
  refine ⟨sorted_modify hs a f hf, fun k => ?_⟩
  unfold HasSym Tree.modify
  constructor
  · rintro ⟨s, hs, rfl⟩
    obtain ⟨s0, h0, rfl⟩ := List.mem_map.mp hs
    refine ⟨s0, h0, ?_⟩
    split
    · rw [hf]
    · rfl
  · rintro ⟨s, hs, rfl⟩
    refine ⟨_, List.mem_map_of_mem hs, ?_⟩
    split
    · rw [hf]
    · rfl

theorem directTarget_ok {i : Insn} {o : Option Addr} (h : directTarget i = .ok o) (t : Addr) : o = some t ↔ Direct i t := by
  unfold directTarget at h
  cases hl : i.ops.getLast? with
  | none => simp only [hl] at h; cases h
  | some op =>
    simp only [hl] at h
    cases op with
    | reg r =>
      cases h
      refine ⟨fun e => (by cases e), fun d => ?_⟩
      cases d with
      | imm v a e => rw [hl] at e; cases e
      | rip s x sc d a e => rw [hl] at e; cases e
    | other =>
      cases h
      refine ⟨fun e => (by cases e), fun d => ?_⟩
      cases d with
      | imm v a e => rw [hl] at e; cases e
      | rip s x sc d a e => rw [hl] at e; cases e
    | imm v a =>
      cases h
      refine ⟨fun e => (by cases e; exact .imm _ a hl), fun d => ?_⟩
      cases d with
      | imm v' a' e => rw [hl] at e; cases e; rfl
      | rip s x sc d a e => rw [hl] at e; cases e
    | mem sg base ix sc disp ac =>
      simp only [Except.ok.injEq] at h
      by_cases hb : base = X86_REG_RIP
      · rw [if_pos hb] at h
        rw [← h]
        constructor
        · intro e
          rw [← Option.some.inj e]
          exact .rip sg ix sc disp ac (by rw [hl, hb])
        · intro d
          cases d with
          | imm v' a' e => rw [hl] at e; cases e
          | rip s x sc' d a e => rw [hl] at e; cases e; rfl
      · rw [if_neg hb] at h
        rw [← h]
        refine ⟨fun e => (by cases e), fun d => ?_⟩
        cases d with
        | imm v' a' e => rw [hl] at e; cases e
        | rip s x sc' d a e => rw [hl] at e; cases e; exact absurd rfl hb

/-! ### One instruction -/

/-- Effect of the groups of an instruction. -/
structure GroupsDone (st : AState) (plt : Bool) (i : Insn) (f1 : FindState) (gs : List InsGroup) (f : FindState) : Prop where
  sorted : Sorted f.symbols
  start : f.start = f1.start
  keep : ∀ k, HasSym f1.symbols k → HasSym f.symbols k
  only : ∀ k, HasSym f.symbols k → HasSym f1.symbols k ∨
    (.call ∈ gs ∧ ∃ t sec, Direct i t ∧ Tree.floor st.sections t = some sec ∧ sec.executable = true ∧
      k = TLS.trans_addr t sec.tls) ∨ (plt = true ∧ k = f1.start)
  calls : .call ∈ gs → ∀ t sec, Direct i t → Tree.floor st.sections t = some sec → sec.executable = true →
    HasSym f.symbols (TLS.trans_addr t sec.tls)
  ret : f.ret = true ↔ f1.ret = true ∨ .ret ∈ gs ∨ .iret ∈ gs
  jumps : plt = false → .jump ∈ gs → ∀ t, Direct i t → t ≤ f.max_branch
  lower : f1.max_branch ≤ f.max_branch
  origin : f.max_branch = f1.max_branch ∨ (.jump ∈ gs ∧ Direct i f.max_branch)

theorem findCall_ok {b : Build} {st : AState} {i : Insn} {f f' : FindState} (hs : Sorted f.symbols)
    (h : findCall b st i f = .ok f') :
    ∃ t', f' = { f with symbols := t' } ∧ Sorted t' ∧ (∀ k, HasSym f.symbols k → HasSym t' k) ∧
      (∀ k, HasSym t' k → HasSym f.symbols k ∨ ∃ t sec, Direct i t ∧ Tree.floor st.sections t = some sec ∧
        sec.executable = true ∧ k = TLS.trans_addr t sec.tls) ∧
      ∀ t sec, Direct i t → Tree.floor st.sections t = some sec → sec.executable = true →
        HasSym t' (TLS.trans_addr t sec.tls) := by
  unfold findCall at h
  cases hd : directTarget i with
  | error e => rw [hd] at h; cases h
  | ok o =>
    rw [hd] at h
    have hdt := directTarget_ok hd
    cases o with
    | none =>
      cases h
      exact ⟨f.symbols, rfl, hs, fun k hk => hk, fun k hk => Or.inl hk,
        fun t sec h1 => by cases (hdt t).mpr h1⟩
    | some target =>
      have hdir := (hdt target).mp rfl
      change (match Tree.floor st.sections target with
        | some sec =>
          if sec.executable = true then do
            let symbols ← insertSymbol b f.symbols (plainArgs sec (TLS.trans_addr target sec.tls) .func)
            return { f with symbols := symbols }
          else return f
        | none => return f) = .ok f' at h
      cases hf : Tree.floor st.sections target with
      | none =>
        rw [hf] at h
        cases h
        refine ⟨f.symbols, rfl, hs, fun k hk => hk, fun k hk => Or.inl hk, fun t sec h1 h2 => ?_⟩
        have := (hdt t).mpr h1
        cases this
        rw [hf] at h2
        cases h2
      | some sec =>
        simp only [hf] at h
        by_cases hx : sec.executable = true
        · rw [if_pos hx] at h
          cases hi : insertSymbol b f.symbols (plainArgs sec (TLS.trans_addr target sec.tls) .func) with
          | error e => rw [hi] at h; cases h
          | ok t' =>
            rw [hi] at h
            cases h
            obtain ⟨h1, h2⟩ := insertSymbol_has hs hi
            refine ⟨t', rfl, h1, fun k hk => (h2 k).mpr (Or.inl hk), fun k hk => ?_, fun t sec' h3 h4 h5 => ?_⟩
            · rcases (h2 k).mp hk with h3 | h3
              · exact Or.inl h3
              · exact Or.inr ⟨target, sec, hdir, hf, hx, h3⟩
            · have := (hdt t).mpr h3
              cases this
              rw [hf] at h4
              cases h4
              exact (h2 _).mpr (Or.inr rfl)
        · rw [if_neg hx] at h
          cases h
          refine ⟨f.symbols, rfl, hs, fun k hk => hk, fun k hk => Or.inl hk, fun t sec' h3 h4 h5 => ?_⟩
          have := (hdt t).mpr h3
          cases this
          rw [hf] at h4
          cases h4
          exact absurd h5 hx

theorem nameImport_ok {b : Build} {st : AState} {i : Insn} {after : Addr} {f f' : FindState} (hs : Sorted f.symbols)
    (h : nameImport b st i after f = .ok f') :
    ∃ t', f' = { f with symbols := t' } ∧ Sorted t' ∧ (∀ k, HasSym f.symbols k → HasSym t' k) ∧
      (∀ k, HasSym t' k → HasSym f.symbols k ∨ k = f.start) := by
  unfold nameImport at h
  replace h := (massert_bind_ok h).2
  split at h
  · rename_i sg base ix sc disp ac rest heq
    replace h := (massert_bind_ok h).2
    cases hm : mderef b (Tree.find st.relocations (i.address + BitVec.ofNat 64 i.size + disp)) with
    | error e => rw [hm] at h; cases h
    | ok rel =>
      rw [hm] at h
      cases hr : rel.symbol with
      | none =>
        simp only [bind, Except.bind, hr] at h
        cases h
        exact ⟨f.symbols, rfl, hs, fun k hk => hk, fun k hk => Or.inl hk⟩
      | some sym =>
        simp only [bind, Except.bind, hr] at h
        cases hf : Tree.find f.symbols f.start with
        | some y =>
          simp only [hf] at h
          cases h
          obtain ⟨h1, h2⟩ := modify_has hs (f := fun s => { s with name := sym.name }) (fun _ => rfl) f.start
          exact ⟨_, rfl, h1, fun k hk => (h2 k).mpr hk, fun k hk => Or.inl ((h2 k).mp hk)⟩
        | none =>
          simp only [hf] at h
          cases hm2 : mderef b (Tree.floor st.sections f.start) with
          | error e => simp only [hm2] at h; cases h
          | ok sec =>
            simp only [hm2] at h
            cases h
            refine ⟨_, rfl, sorted_insert hs _, fun k ⟨s, h1, h2⟩ => ⟨s, (mem_insert' hs).mpr (Or.inl h1), h2⟩, fun k ⟨s, h1, h2⟩ => ?_⟩
            rcases (mem_insert' hs).mp h1 with h3 | ⟨h3, _⟩
            · exact Or.inl ⟨s, h3, h2⟩
            · right
              rw [← h2, h3]
              rfl
  · replace h := (massert_bind_ok h).2
    cases h

theorem findJump_ok {b : Build} {st : AState} {plt : Bool} {i : Insn} {after : Addr} {f f' : FindState}
    (hs : Sorted f.symbols) (h : findJump b st plt i after f = .ok f') :
    Sorted f'.symbols ∧ f'.start = f.start ∧ f'.ret = f.ret ∧ (∀ k, HasSym f.symbols k → HasSym f'.symbols k) ∧
      (∀ k, HasSym f'.symbols k → HasSym f.symbols k ∨ (plt = true ∧ k = f.start)) ∧
      (plt = false → ∀ t, Direct i t → t ≤ f'.max_branch) ∧ f.max_branch ≤ f'.max_branch ∧
      (f'.max_branch = f.max_branch ∨ Direct i f'.max_branch) := by
  unfold findJump at h
  cases plt with
  | true =>
    rw [if_pos rfl] at h
    obtain ⟨t', rfl, h1, h2, h3⟩ := nameImport_ok hs h
    exact ⟨h1, rfl, rfl, h2, fun k hk => (h3 k hk).imp id (fun e => ⟨rfl, e⟩), fun e => (by cases e), bv_le_refl _, Or.inl rfl⟩
  | false =>
    rw [if_neg (by decide)] at h
    cases hd : directTarget i with
    | error e => rw [hd] at h; cases h
    | ok o =>
      rw [hd] at h
      have hdt := directTarget_ok hd
      cases o with
      | none =>
        cases h
        exact ⟨hs, rfl, rfl, fun k hk => hk, fun k hk => Or.inl hk, fun _ t h1 => (by cases (hdt t).mpr h1), bv_le_refl _, Or.inl rfl⟩
      | some target =>
        have hdir := (hdt target).mp rfl
        have h' : (if target > f.max_branch then { f with max_branch := target } else f) = f' := Except.ok.inj h
        by_cases hgt : target > f.max_branch
        · rw [if_pos hgt] at h'
          subst h'
          refine ⟨hs, rfl, rfl, fun k hk => hk, fun k hk => Or.inl hk, fun _ t h1 => ?_, BitVec.le_of_lt hgt, Or.inr hdir⟩
          have := (hdt t).mpr h1
          cases this
          exact bv_le_refl _
        · rw [if_neg hgt] at h'
          subst h'
          refine ⟨hs, rfl, rfl, fun k hk => hk, fun k hk => Or.inl hk, fun _ t h1 => ?_, bv_le_refl _, Or.inl rfl⟩
          have := (hdt t).mpr h1
          cases this
          exact bv_not_lt.mp hgt

theorem groups_ok {b : Build} {st : AState} {plt : Bool} {i : Insn} {after : Addr} {f1 f : FindState}
    (hs : Sorted f1.symbols) (gs : List InsGroup) (h : gs.foldlM (findGroup b st plt i after) f1 = .ok f) :
    GroupsDone st plt i f1 gs f := by
  refine foldlM_prefix (GroupsDone st plt i f1) ?_ ?_ h
  · exact ⟨hs, rfl, fun k hk => hk, fun k hk => Or.inl hk, fun h => by simp at h, by simp, fun _ h => by simp at h,
      bv_le_refl _, Or.inl rfl⟩
  · intro pre g post a a' _ hp hg
    have hmem : ∀ {x : InsGroup}, x ≠ g → (x ∈ pre ++ [g] ↔ x ∈ pre) := by
      intro x hx; simp [hx]
    have hself : g ∈ pre ++ [g] := by simp
    have hmono : ∀ {x : InsGroup}, x ∈ pre → x ∈ pre ++ [g] := fun h => List.mem_append_left _ h
    cases g with
    | jump =>
      obtain ⟨h1, h2, h3, h4, h5, h6, h7, h8⟩ := findJump_ok hp.sorted hg
      refine ⟨h1, h2.trans hp.start, fun k hk => h4 k (hp.keep k hk), fun k hk => ?_, fun hc t sec a1 a2 a3 => ?_, ?_,
        fun e _ t ht => h6 e t ht, ?_, ?_⟩
      · rcases h5 k hk with h9 | ⟨h9, h10⟩
        · rcases hp.only k h9 with h11 | ⟨h11, h12⟩ | h11
          · exact Or.inl h11
          · exact Or.inr (Or.inl ⟨hmono h11, h12⟩)
          · exact Or.inr (Or.inr h11)
        · exact Or.inr (Or.inr ⟨h9, h10.trans hp.start⟩)
      · exact h4 _ (hp.calls ((hmem (by decide)).mp hc) t sec a1 a2 a3)
      · rw [h3, hp.ret, hmem (by decide), hmem (by decide)]
      · exact BitVec.le_trans hp.lower h7
      · rcases h8 with h9 | h9
        · rcases hp.origin with h10 | ⟨h10, h11⟩
          · exact Or.inl (h9.trans h10)
          · exact Or.inr ⟨hself, by rw [h9]; exact h11⟩
        · exact Or.inr ⟨hself, h9⟩
    | call =>
      obtain ⟨t', rfl, h1, h2, h3, h4⟩ := findCall_ok hp.sorted hg
      refine ⟨h1, hp.start, fun k hk => h2 k (hp.keep k hk), fun k hk => ?_, fun _ t sec a1 a2 a3 => h4 t sec a1 a2 a3, ?_,
        fun e hj t ht => hp.jumps e ((hmem (by decide)).mp hj) t ht, hp.lower, ?_⟩
      · rcases h3 k hk with h9 | h9
        · rcases hp.only k h9 with h11 | ⟨h11, h12⟩ | h11
          · exact Or.inl h11
          · exact Or.inr (Or.inl ⟨hmono h11, h12⟩)
          · exact Or.inr (Or.inr h11)
        · exact Or.inr (Or.inl ⟨hself, h9⟩)
      · show a.ret = true ↔ _
        rw [hp.ret, hmem (by decide), hmem (by decide)]
      · rcases hp.origin with h10 | ⟨h10, h11⟩
        · exact Or.inl h10
        · exact Or.inr ⟨hmono h10, h11⟩
    | ret =>
      cases hg
      refine ⟨hp.sorted, hp.start, hp.keep, fun k hk => ?_, fun hc => hp.calls ((hmem (by decide)).mp hc),
        ⟨fun _ => Or.inr (Or.inl hself), fun _ => rfl⟩, fun e hj => hp.jumps e ((hmem (by decide)).mp hj), hp.lower, ?_⟩
      · exact (hp.only k hk).imp id (fun h => h.imp (fun h => ⟨hmono h.1, h.2⟩) id)
      · exact hp.origin.imp id (fun h => ⟨hmono h.1, h.2⟩)
    | iret =>
      cases hg
      refine ⟨hp.sorted, hp.start, hp.keep, fun k hk => ?_, fun hc => hp.calls ((hmem (by decide)).mp hc),
        ⟨fun _ => Or.inr (Or.inr hself), fun _ => rfl⟩, fun e hj => hp.jumps e ((hmem (by decide)).mp hj), hp.lower, ?_⟩
      · exact (hp.only k hk).imp id (fun h => h.imp (fun h => ⟨hmono h.1, h.2⟩) id)
      · exact hp.origin.imp id (fun h => ⟨hmono h.1, h.2⟩)
    | other =>
      cases hg
      refine ⟨hp.sorted, hp.start, hp.keep, fun k hk => ?_, fun hc => hp.calls ((hmem (by decide)).mp hc), ?_,
        fun e hj => hp.jumps e ((hmem (by decide)).mp hj), hp.lower, ?_⟩
      · exact (hp.only k hk).imp id (fun h => h.imp (fun h => ⟨hmono h.1, h.2⟩) id)
      · rw [hp.ret, hmem (by decide), hmem (by decide)]
      · exact hp.origin.imp id (fun h => ⟨hmono h.1, h.2⟩)

/-- Effect of the decision about a start: `new` tells if there is a new one. -/
structure StartDone (env : Env) (sec : ElfSec) (i : Insn) (f f1 : FindState) : Prop where
  sorted : Sorted f1.symbols
  ret : f1.ret = true ↔ env.kind i.id = .jmp ∨ env.kind i.id = .halt
  cases' : (f1.symbols = f.symbols ∧ f1.max_branch = f.max_branch ∧
      (f1.start = f.start ∨ f1.start = i.address) ∧
      ¬ (f.ret = true ∧ (env.kind i.id = .endbr ∨ (Ordinary (env.kind i.id) ∧ f.max_branch < i.address)))) ∨
    (f.ret = true ∧ (env.kind i.id = .endbr ∨ (Ordinary (env.kind i.id) ∧ f.max_branch < i.address)) ∧
      f1.start = i.address ∧ f1.max_branch = i.address ∧
      ∀ k, HasSym f1.symbols k ↔ HasSym f.symbols k ∨ k = TLS.trans_addr i.address sec.tls)

theorem insertStart_ok {b : Build} {sec : ElfSec} {a : Addr} {f f1 : FindState} (hs : Sorted f.symbols)
    (h : insertStart b sec a f = .ok f1) :
    ∃ t', f1 = { f with symbols := t', start := a, max_branch := a } ∧ Sorted t' ∧
      ∀ k, HasSym t' k ↔ HasSym f.symbols k ∨ k = TLS.trans_addr a sec.tls := by
  unfold insertStart at h
  replace h := (massert_bind_ok h).2
  cases hi : insertSymbol b f.symbols (plainArgs sec (TLS.trans_addr a sec.tls) .func) with
  | error e => rw [hi] at h; cases h
  | ok t' =>
    rw [hi] at h
    cases h
    obtain ⟨h1, h2⟩ := insertSymbol_has hs hi
    exact ⟨t', rfl, h1, h2⟩

theorem findStart_ok {env : Env} {sec : ElfSec} {i : Insn} {f f1 : FindState} (hs : Sorted f.symbols)
    (hn : env.kind i.id ≠ .nop) (h : findStart env sec i f = .ok f1) : StartDone env sec i f f1 := by
  unfold findStart at h
  have hord : ∀ {k : InsKind}, env.kind i.id = k → k ≠ .nop → k ≠ .jmp → k ≠ .halt → k ≠ .endbr →
      (if f.ret = true ∧ f.max_branch < i.address then do
        let f ← insertStart env.build sec i.address f
        return { f with ret := false }
      else .ok { f with ret := false }) = (.ok f1 : M FindState) → StartDone env sec i f f1 := by
    intro k hk h1 h2 h3 h4 h
    have hO : Ordinary (env.kind i.id) := by
      rw [hk]
      cases k <;> first | exact trivial | contradiction
    by_cases hc : f.ret = true ∧ f.max_branch < i.address
    · rw [if_pos hc] at h
      cases hi : insertStart env.build sec i.address f with
      | error e => rw [hi] at h; cases h
      | ok f2 =>
        rw [hi] at h
        cases h
        obtain ⟨t', rfl, h5, h6⟩ := insertStart_ok hs hi
        refine ⟨h5, ⟨fun e => (by cases e), fun e => ?_⟩, Or.inr ⟨hc.1, Or.inr ⟨hO, hc.2⟩, rfl, rfl, h6⟩⟩
        rw [hk] at e
        rcases e with e | e
        · exact absurd e h2
        · exact absurd e h3
    · rw [if_neg hc] at h
      cases h
      refine ⟨hs, ⟨fun e => (by cases e), fun e => ?_⟩, Or.inl ⟨rfl, rfl, Or.inl rfl, ?_⟩⟩
      · rw [hk] at e
        rcases e with e | e
        · exact absurd e h2
        · exact absurd e h3
      · rintro ⟨e1, e2 | e2⟩
        · rw [hk] at e2; exact h4 e2
        · exact hc ⟨e1, e2.2⟩
  cases hk : env.kind i.id with
  | nop => exact absurd hk hn
  | jmp =>
    rw [hk] at h
    cases h
    refine ⟨hs, ⟨fun _ => Or.inl hk, fun _ => rfl⟩, Or.inl ⟨rfl, rfl, Or.inl rfl, ?_⟩⟩
    rw [hk]
    rintro ⟨_, e | e⟩
    · cases e
    · exact e.1
  | halt =>
    rw [hk] at h
    cases h
    refine ⟨hs, ⟨fun _ => Or.inr hk, fun _ => rfl⟩, Or.inl ⟨rfl, rfl, Or.inl rfl, ?_⟩⟩
    rw [hk]
    rintro ⟨_, e | e⟩
    · cases e
    · exact e.1
  | endbr =>
    rw [hk] at h
    simp only at h
    by_cases hr : f.ret = true
    · rw [if_pos hr] at h
      cases hi : insertStart env.build sec i.address f with
      | error e => rw [hi] at h; cases h
      | ok f2 =>
        rw [hi] at h
        cases h
        obtain ⟨t', rfl, h5, h6⟩ := insertStart_ok hs hi
        refine ⟨h5, ⟨fun e => (by cases e), fun e => ?_⟩, Or.inr ⟨hr, Or.inl hk, rfl, rfl, h6⟩⟩
        rw [hk] at e
        rcases e with e | e <;> cases e
    · rw [if_neg hr] at h
      cases h
      refine ⟨hs, ⟨fun e => absurd e hr, fun e => ?_⟩, Or.inl ⟨rfl, rfl, Or.inr rfl, fun e => hr e.1⟩⟩
      rw [hk] at e
      rcases e with e | e <;> cases e
  | ljmp => rw [hk] at h; exact hord hk (by decide) (by decide) (by decide) (by decide) h
  | ret => rw [hk] at h; exact hord hk (by decide) (by decide) (by decide) (by decide) h
  | call => rw [hk] at h; exact hord hk (by decide) (by decide) (by decide) (by decide) h
  | condBranch => rw [hk] at h; exact hord hk (by decide) (by decide) (by decide) (by decide) h
  | other => rw [hk] at h; exact hord hk (by decide) (by decide) (by decide) (by decide) h


/-! ### One section -/

theorem afterEnd_nop {env : Env} {pre : List Step} {x : Step} (h : env.kind x.insn.id = .nop) :
    AfterEnd env (pre ++ [x]) ↔ AfterEnd env pre := by
  unfold AfterEnd
  rw [List.filter_append, List.filter_cons_of_neg (by simp [h]), List.filter_nil, List.append_nil]

theorem afterEnd_step {env : Env} {pre : List Step} {x : Step} (h : env.kind x.insn.id ≠ .nop) :
    AfterEnd env (pre ++ [x]) ↔ Ends env x := by
  unfold AfterEnd
  rw [List.filter_append, List.filter_cons_of_pos (by simp [h]), List.filter_nil]
  simp

/-- State after the instructions `pre` of a section; `t0` are the symbols at the beginning, `N` the starts found so far. -/
structure Found (env : Env) (fl : AnalyzeFlags) (st : AState) (sec : ElfSec) (steps : List Step) (t0 : SymTree)
    (pre : List Step) (f : FindState) : Prop where
  sorted : Sorted f.symbols
  keep : ∀ k, HasSym t0 k → HasSym f.symbols k
  only : ∀ t', (∀ k, HasSym f.symbols k → HasSym t' k) → ∀ k, HasSym f.symbols k → HasSym t0 k ∨ Start env fl st t' k
  ret : f.ret = true ↔ AfterEnd env pre
  calls : ∀ x ∈ pre, env.kind x.insn.id ≠ .nop → ∀ k, CallsTo st x.insn k → HasSym f.symbols k
  marks : ∀ p x q, pre = p ++ x :: q → env.kind x.insn.id = .endbr → AfterEnd env p →
    HasSym f.symbols (TLS.trans_addr x.insn.address sec.tls)
  nexts : ∀ p x q, pre = p ++ x :: q → Ordinary (env.kind x.insn.id) → AfterEnd env p → sec.virt_addr < x.insn.address →
    (∀ y ∈ p, y.insn.address < x.insn.address) → (∀ y ∈ p, ∀ t, JumpsTo env y t → t < x.insn.address) →
    HasSym f.symbols (TLS.trans_addr x.insn.address sec.tls)
  start : f.start = sec.virt_addr ∨ ∃ x ∈ pre, f.start = x.insn.address
  bound : ∃ p q, pre = p ++ q ∧
    (p = [] ∨ ∃ y l, q = y :: l ∧ HasSym f.symbols (TLS.trans_addr y.insn.address sec.tls)) ∧
    (namesPlt fl sec = false → ∀ y ∈ q, ∀ t, JumpsTo env y t → t ≤ f.max_branch)
  origin : f.max_branch = sec.virt_addr ∨ (∃ y ∈ pre, f.max_branch = y.insn.address) ∨ ∃ y ∈ pre, JumpsTo env y f.max_branch

theorem bv_lt_of_le_of_lt {a b c : Addr} (h1 : a ≤ b) (h2 : b < c) : a < c := by
  rw [BitVec.lt_def] at *
  rw [BitVec.le_def] at h1
  omega

theorem found_step {env : Env} {fl : AnalyzeFlags} {st : AState} {sec : ElfSec} {steps : List Step} {t0 : SymTree}
    {pre : List Step} {x : Step} {post : List Step} {f f' : FindState} (hc : SectionCode env st sec steps)
    (hsteps : steps = pre ++ x :: post) (hp : Found env fl st sec steps t0 pre f)
    (h : findInsn env st sec (namesPlt fl sec) f x = .ok f') : Found env fl st sec steps t0 (pre ++ [x]) f' := by
  have hx : x ∈ steps := by rw [hsteps]; simp
  unfold findInsn at h
  by_cases hn : env.kind x.insn.id = .nop
  · rw [if_pos hn] at h
    cases h
    have hno : ¬ Ordinary (env.kind x.insn.id) := by rw [hn]; exact fun h => h
    refine ⟨hp.sorted, hp.keep, hp.only, by rw [hp.ret, afterEnd_nop hn], ?_, ?_, ?_, ?_, ?_, ?_⟩
    · intro y hy hk k hck
      rcases List.mem_append.mp hy with hy | hy
      · exact hp.calls y hy hk k hck
      · rw [List.mem_singleton.mp hy] at hk
        exact absurd hn hk
    · intro p y q he hk ha
      rcases split_snoc he with ⟨rfl, rfl, rfl⟩ | ⟨q', rfl, he'⟩
      · rw [hn] at hk; cases hk
      · exact hp.marks p y q' he' hk ha
    · intro p y q he hk ha h1 h2 h3
      rcases split_snoc he with ⟨rfl, rfl, rfl⟩ | ⟨q', rfl, he'⟩
      · exact absurd hk hno
      · exact hp.nexts p y q' he' hk ha h1 h2 h3
    · exact hp.start.imp id (fun ⟨y, h1, h2⟩ => ⟨y, List.mem_append_left _ h1, h2⟩)
    · obtain ⟨p, q, he, h1, h2⟩ := hp.bound
      refine ⟨p, q ++ [x], by rw [he, List.append_assoc], ?_, ?_⟩
      · rcases h1 with h1 | ⟨y, l, rfl, h1⟩
        · exact Or.inl h1
        · exact Or.inr ⟨y, l ++ [x], rfl, h1⟩
      · intro e y hy t ht
        rcases List.mem_append.mp hy with hy | hy
        · exact h2 e y hy t ht
        · rw [List.mem_singleton.mp hy] at ht
          exact absurd hn ht.1
    · rcases hp.origin with h1 | ⟨y, h1, h2⟩ | ⟨y, h1, h2⟩
      · exact Or.inl h1
      · exact Or.inr (Or.inl ⟨y, List.mem_append_left _ h1, h2⟩)
      · exact Or.inr (Or.inr ⟨y, List.mem_append_left _ h1, h2⟩)
  · rw [if_neg hn] at h
    cases h1 : findStart env sec x.insn f with
    | error e => rw [h1] at h; cases h
    | ok f1 =>
      rw [h1] at h
      have hS := findStart_ok hp.sorted hn h1
      have hG : GroupsDone st (namesPlt fl sec) x.insn f1 x.insn.groups f' := groups_ok hS.sorted _ h
      -- symbols after the decision about the start
      have hkeep1 : ∀ k, HasSym f.symbols k → HasSym f1.symbols k := by
        rcases hS.cases' with ⟨e, _⟩ | ⟨_, _, _, _, e⟩
        · rw [e]; exact fun k hk => hk
        · exact fun k hk => (e k).mpr (Or.inl hk)
      have hkeep : ∀ k, HasSym f.symbols k → HasSym f'.symbols k := fun k hk => hG.keep k (hkeep1 k hk)
      have hnew : f.ret = true → (env.kind x.insn.id = .endbr ∨
          (Ordinary (env.kind x.insn.id) ∧ f.max_branch < x.insn.address)) →
          HasSym f'.symbols (TLS.trans_addr x.insn.address sec.tls) := by
        intro hr hk
        rcases hS.cases' with ⟨_, _, _, e⟩ | ⟨_, _, _, _, e⟩
        · exact absurd ⟨hr, hk⟩ e
        · exact hG.keep _ ((e _).mpr (Or.inr rfl))
      have hstart1 : f1.start = sec.virt_addr ∨ ∃ y ∈ pre ++ [x], f1.start = y.insn.address := by
        have hfx : f1.start = x.insn.address → ∃ y ∈ pre ++ [x], f1.start = y.insn.address :=
          fun e => ⟨x, by simp, e⟩
        rcases hS.cases' with ⟨_, _, e, _⟩ | ⟨_, _, e, _⟩
        · rcases e with e | e
          · rw [e]
            exact hp.start.imp id (fun ⟨y, h1, h2⟩ => ⟨y, List.mem_append_left _ h1, h2⟩)
          · exact Or.inr (hfx e)
        · exact Or.inr (hfx e)
      have hlower : f1.max_branch ≤ f'.max_branch := hG.lower
      refine ⟨hG.sorted, fun k hk => hkeep k (hp.keep k hk), ?_, ?_, ?_, ?_, ?_, ?_, ?_, ?_⟩
      · intro t' ht' k hk
        have hf := hp.only t' (fun k hk => ht' k (hkeep k hk))
        rcases hG.only k hk with h2 | ⟨h2, h3⟩ | ⟨h2, h3⟩
        · rcases hS.cases' with ⟨e, _⟩ | ⟨hr, hk', _, _, e⟩
          · rw [e] at h2
            exact hf k h2
          · rcases (e k).mp h2 with h3 | h3
            · exact hf k h3
            · right
              rw [h3]
              have ha := hp.ret.mp hr
              rcases hk' with hk' | ⟨hk', hlt⟩
              · exact .mark sec pre x post (hsteps ▸ hc) hk' ha
              · obtain ⟨p, q, he, hb1, hb2⟩ := hp.bound
                refine .next sec p q x post (by rw [← he, ← hsteps]; exact hc) hk' (he ▸ ha) ?_ ?_
                · rcases hb1 with hb1 | ⟨y, l, hb1, hb3⟩
                  · exact Or.inl hb1
                  · exact Or.inr ⟨y, l, hb1, ht' _ (hkeep _ hb3)⟩
                · intro e y hy t ht
                  exact bv_lt_of_le_of_lt (hb2 e y hy t ht) hlt
        · exact Or.inr (.called sec steps x k hc hx hn ⟨h2, h3⟩)
        · right
          refine .plt sec steps k hc h2 ?_
          rw [h3]
          rcases hstart1 with e | ⟨y, hy, e⟩
          · exact Or.inl e
          · refine Or.inr ⟨y, ?_, e⟩
            rw [hsteps]
            rcases List.mem_append.mp hy with hy | hy
            · exact List.mem_append_left _ hy
            · rw [List.mem_singleton.mp hy]; simp
      · rw [hG.ret, hS.ret, afterEnd_step hn]
        unfold Ends
        constructor
        · rintro ((h | h) | h | h)
          · exact Or.inl h
          · exact Or.inr (Or.inl h)
          · exact Or.inr (Or.inr (Or.inl h))
          · exact Or.inr (Or.inr (Or.inr h))
        · rintro (h | h | h | h)
          · exact Or.inl (Or.inl h)
          · exact Or.inl (Or.inr h)
          · exact Or.inr (Or.inl h)
          · exact Or.inr (Or.inr h)
      · intro y hy hk k hck
        rcases List.mem_append.mp hy with hy | hy
        · exact hkeep k (hp.calls y hy hk k hck)
        · rw [List.mem_singleton.mp hy] at hck
          obtain ⟨hg, t, s, a1, a2, a3, rfl⟩ := hck
          exact hG.calls hg t s a1 a2 a3
      · intro p y q he hk ha
        rcases split_snoc he with ⟨rfl, rfl, rfl⟩ | ⟨q', rfl, he'⟩
        · exact hnew (hp.ret.mpr ha) (Or.inl hk)
        · exact hkeep _ (hp.marks p y q' he' hk ha)
      · intro p y q he hk ha a1 a2 a3
        rcases split_snoc he with ⟨rfl, rfl, rfl⟩ | ⟨q', rfl, he'⟩
        · refine hnew (hp.ret.mpr ha) (Or.inr ⟨hk, ?_⟩)
          rcases hp.origin with e | ⟨z, hz, e⟩ | ⟨z, hz, e⟩
          · rw [e]; exact a1
          · rw [e]; exact a2 z hz
          · exact a3 z hz _ e
        · exact hkeep _ (hp.nexts p y q' he' hk ha a1 a2 a3)
      · rw [hG.start]
        exact hstart1
      · rcases hS.cases' with ⟨_, e, _, _⟩ | ⟨_, _, _, _, e⟩
        · obtain ⟨p, q, he, b1, b2⟩ := hp.bound
          refine ⟨p, q ++ [x], by rw [he, List.append_assoc], ?_, ?_⟩
          · rcases b1 with b1 | ⟨y, l, rfl, b1⟩
            · exact Or.inl b1
            · exact Or.inr ⟨y, l ++ [x], rfl, hkeep _ b1⟩
          · intro e' y hy t ht
            rcases List.mem_append.mp hy with hy | hy
            · exact BitVec.le_trans (b2 e' y hy t ht) (e ▸ hlower)
            · rw [List.mem_singleton.mp hy] at ht
              exact hG.jumps e' ht.2.1 t ht.2.2
        · refine ⟨pre, [x], rfl, Or.inr ⟨x, [], rfl, hG.keep _ ((e _).mpr (Or.inr rfl))⟩, ?_⟩
          intro e' y hy t ht
          rw [List.mem_singleton.mp hy] at ht
          exact hG.jumps e' ht.2.1 t ht.2.2
      · rcases hG.origin with e | ⟨e1, e2⟩
        · rw [e]
          rcases hS.cases' with ⟨_, e, _, _⟩ | ⟨_, _, _, e, _⟩
          · rw [e]
            rcases hp.origin with h1 | ⟨y, h1, h2⟩ | ⟨y, h1, h2⟩
            · exact Or.inl h1
            · exact Or.inr (Or.inl ⟨y, List.mem_append_left _ h1, h2⟩)
            · exact Or.inr (Or.inr ⟨y, List.mem_append_left _ h1, h2⟩)
          · exact Or.inr (Or.inl ⟨x, by simp, e⟩)
        · exact Or.inr (Or.inr ⟨x, by simp, hn, e1, e2⟩)

/-- What a section contributes to the symbols. -/
structure SectionDone (env : Env) (fl : AnalyzeFlags) (st : AState) (t0 : SymTree) (sec : ElfSec) (t : SymTree) : Prop where
  sorted : Sorted t
  keep : ∀ k, HasSym t0 k → HasSym t k
  only : ∀ t', (∀ k, HasSym t k → HasSym t' k) → ∀ k, HasSym t k → HasSym t0 k ∨ Start env fl st t' k
  start : HasSym t (TLS.trans_addr sec.virt_addr sec.tls)
  calls : ∀ steps, SectionCode env st sec steps → ∀ x ∈ steps, env.kind x.insn.id ≠ .nop → ∀ k, CallsTo st x.insn k →
    HasSym t k
  marks : ∀ p x q, SectionCode env st sec (p ++ x :: q) → env.kind x.insn.id = .endbr → AfterEnd env p →
    HasSym t (TLS.trans_addr x.insn.address sec.tls)
  nexts : ∀ p x q, SectionCode env st sec (p ++ x :: q) → Ordinary (env.kind x.insn.id) → AfterEnd env p →
    sec.virt_addr < x.insn.address → (∀ y ∈ p, y.insn.address < x.insn.address) →
    (∀ y ∈ p, ∀ t, JumpsTo env y t → t < x.insn.address) → HasSym t (TLS.trans_addr x.insn.address sec.tls)

theorem findSection_done {env : Env} {fl : AnalyzeFlags} {st : AState} {t0 t : SymTree} {sec : ElfSec}
    (hm : sec ∈ st.sections) (hs : Sorted t0) (h : findSection env fl st t0 sec = .ok t) :
    SectionDone env fl st t0 sec t := by
  unfold findSection at h
  cases hi : insertSymbol env.build t0 (plainArgs sec (TLS.trans_addr sec.virt_addr sec.tls)) with
  | error e => rw [hi] at h; cases h
  | ok t1 =>
    rw [hi] at h
    obtain ⟨h1, h2⟩ := insertSymbol_has hs hi
    have hstart1 : HasSym t1 (TLS.trans_addr sec.virt_addr sec.tls) := (h2 _).mpr (Or.inr rfl)
    have hkeep1 : ∀ k, HasSym t0 k → HasSym t1 k := fun k hk => (h2 k).mpr (Or.inl hk)
    have honly1 : ∀ t' k, HasSym t1 k → HasSym t0 k ∨ Start env fl st t' k := by
      intro t' k hk
      rcases (h2 k).mp hk with h3 | h3
      · exact Or.inl h3
      · right
        rw [h3]
        exact .sec sec hm
    change (if sec.executable = true then _ else _) = _ at h
    by_cases hx : sec.executable = true
    · rw [if_pos hx] at h
      cases hb : readBytes sec.data 0 sec.size with
      | error e => rw [hb] at h; cases h
      | ok bytes =>
        rw [hb] at h
        cases hf : (disasm env sec.virt_addr bytes).foldlM (findInsn env st sec (namesPlt fl sec))
            { symbols := t1, start := sec.virt_addr, max_branch := sec.virt_addr } with
        | error e => simp only [bind, Except.bind, hf] at h; cases h
        | ok f =>
          simp only [bind, Except.bind, hf] at h
          cases h
          have hc : SectionCode env st sec (disasm env sec.virt_addr bytes) := ⟨hm, hx, bytes, hb, rfl⟩
          have huniq : ∀ steps, SectionCode env st sec steps → steps = disasm env sec.virt_addr bytes := by
            rintro steps ⟨_, _, b', hb', rfl⟩
            rw [hb] at hb'
            cases hb'
            rfl
          have hF : Found env fl st sec (disasm env sec.virt_addr bytes) t1 (disasm env sec.virt_addr bytes) f := by
            refine foldlM_prefix (Found env fl st sec (disasm env sec.virt_addr bytes) t1) ?_
              (fun pre x post a a' he hp hstep => found_step hc he hp hstep) hf
            refine ⟨h1, fun k hk => hk, fun _ _ k hk => Or.inl hk, ?_, fun x hx => (by cases hx), ?_, ?_, Or.inl rfl,
              ⟨[], [], rfl, Or.inl rfl, fun _ y hy => (by cases hy)⟩, Or.inl rfl⟩
            · refine ⟨fun e => (by cases e), fun ⟨p, hp, _⟩ => ?_⟩
              simp at hp
            · intro p x q he
              simp at he
            · intro p x q he
              simp at he
          refine ⟨hF.sorted, fun k hk => hF.keep k (hkeep1 k hk), ?_, hF.keep _ hstart1, ?_, ?_, ?_⟩
          · intro t' ht' k hk
            rcases hF.only t' ht' k hk with h3 | h3
            · exact honly1 t' k h3
            · exact Or.inr h3
          · intro steps hst x hxm
            rw [huniq steps hst] at hxm
            exact hF.calls x hxm
          · intro p x q hst
            exact hF.marks p x q (huniq _ hst).symm
          · intro p x q hst
            exact hF.nexts p x q (huniq _ hst).symm
    · rw [if_neg hx] at h
      cases h
      exact ⟨h1, hkeep1, fun t' _ => honly1 t', hstart1, fun _ h => absurd h.2.1 hx, fun _ _ _ h => absurd h.2.1 hx,
        fun _ _ _ h => absurd h.2.1 hx⟩

/-- What the search contributes for each of the sections. -/
structure SearchDone (env : Env) (fl : AnalyzeFlags) (st : AState) (secs : List ElfSec) (t : SymTree) : Prop where
  sorted : Sorted t
  keep : ∀ k, HasSym st.symbols k → HasSym t k
  only : ∀ t', (∀ k, HasSym t k → HasSym t' k) → ∀ k, HasSym t k → HasSym st.symbols k ∨ Start env fl st t' k
  start : ∀ sec ∈ secs, HasSym t (TLS.trans_addr sec.virt_addr sec.tls)
  calls : ∀ sec ∈ secs, ∀ steps, SectionCode env st sec steps → ∀ x ∈ steps, env.kind x.insn.id ≠ .nop → ∀ k,
    CallsTo st x.insn k → HasSym t k
  marks : ∀ sec ∈ secs, ∀ p x q, SectionCode env st sec (p ++ x :: q) → env.kind x.insn.id = .endbr → AfterEnd env p →
    HasSym t (TLS.trans_addr x.insn.address sec.tls)
  nexts : ∀ sec ∈ secs, ∀ p x q, SectionCode env st sec (p ++ x :: q) → Ordinary (env.kind x.insn.id) → AfterEnd env p →
    sec.virt_addr < x.insn.address → (∀ y ∈ p, y.insn.address < x.insn.address) →
    (∀ y ∈ p, ∀ t, JumpsTo env y t → t < x.insn.address) → HasSym t (TLS.trans_addr x.insn.address sec.tls)

theorem findFunctions_done {env : Env} {fl : AnalyzeFlags} {st st' : AState} (hs : Sorted st.symbols)
    (h : findFunctions env fl st = .ok st') :
    ∃ t, st' = { st with symbols := t } ∧ SearchDone env fl st st.sections t := by
  unfold findFunctions at h
  cases hf : st.sections.foldlM (findSection env fl st) st.symbols with
  | error e => rw [hf] at h; cases h
  | ok t =>
    rw [hf] at h
    cases h
    refine ⟨t, rfl, ?_⟩
    refine foldlM_prefix (SearchDone env fl st) ?_ ?_ hf
    · exact ⟨hs, fun k hk => hk, fun _ _ k hk => Or.inl hk, fun _ h => (by cases h), fun _ h => (by cases h),
        fun _ h => (by cases h), fun _ h => (by cases h)⟩
    · intro pre sec post a a' he hp hstep
      have hm : sec ∈ st.sections := by rw [he]; simp
      have hd := findSection_done hm hp.sorted hstep
      have hcase : ∀ {P : ElfSec → Prop}, (∀ s ∈ pre, P s) → P sec → ∀ s ∈ pre ++ [sec], P s := by
        intro P h1 h2 s hs
        rcases List.mem_append.mp hs with hs | hs
        · exact h1 s hs
        · rw [List.mem_singleton.mp hs]; exact h2
      refine ⟨hd.sorted, fun k hk => hd.keep k (hp.keep k hk), ?_, ?_, ?_, ?_, ?_⟩
      · intro t' ht' k hk
        rcases hd.only t' ht' k hk with h1 | h1
        · exact hp.only t' (fun k hk => ht' k (hd.keep k hk)) k h1
        · exact Or.inr h1
      · exact hcase (fun s hs => hd.keep _ (hp.start s hs)) hd.start
      · exact hcase (fun s hs steps a1 x a2 a3 k a4 => hd.keep _ (hp.calls s hs steps a1 x a2 a3 k a4)) hd.calls
      · exact hcase (fun s hs p x q a1 a2 a3 => hd.keep _ (hp.marks s hs p x q a1 a2 a3)) hd.marks
      · exact hcase (fun s hs p x q a1 a2 a3 a4 a5 a6 => hd.keep _ (hp.nexts s hs p x q a1 a2 a3 a4 a5 a6)) hd.nexts

end Bean

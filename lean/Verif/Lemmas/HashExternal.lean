import Verif.Spec.HashExternal
import Verif.Lemmas.HashRels
/-
Closed form of `hash_external`.
-/
namespace Bean
open Tree Spec

/-! ### Lookup in trees with modified elements -/

theorem floor_map {α : Type} [Keyed α] {t : List α} {f : α → α} (hf : ∀ x, key (f x) = key x) (k : Addr) :
    floor (t.map f) k = (floor t k).map f := by
  unfold floor
  rw [List.filter_map, List.getLast?_map]
  congr 2
  refine List.filter_congr (fun x _ => ?_)
  simp [hf]

theorem find_map {α : Type} [Keyed α] {t : List α} {f : α → α} (hf : ∀ x, key (f x) = key x) (k : Addr) :
    Tree.find (t.map f) k = (Tree.find t k).map f := by
  unfold Tree.find
  rw [List.find?_map]
  congr 2
  funext x
  simp [hf]

/-- Everything but references, dependencies and external identifier. -/
def core (s : Symbol) : Symbol := { s with refs := [], deps := [], id := { s.id with external := 0 } }

/-- Bytes added for a reference, given the closest lower symbol. -/
def refBytes (env : Env) (got : Addr) (y : Option Symbol) (ref : Addr) : List (BitVec 8) :=
  match y with
  | some y =>
    if TLS.is_tls y.address = TLS.is_tls ref then
      if y.address = got ∧ ref - y.address < 24 then env.str_bytes gotSpecial ++ le64 (ref - y.address)
      else
        match if y.address = got then (Tree.find y.rels ref).filter (·.undefined) else none with
        | some rel => le64 rel.type ++ env.str_bytes rel.name ++ le64 rel.addend
        | none =>
          if y.bind = .global then env.str_bytes y.name ++ [y.type.code]
          else le64 y.id.internal ++ [y.type.code] ++ le64 (ref - y.address)
    else le64 ref
  | none => le64 ref

/-- The symbol whose dependencies are extended due to a reference, given the closest lower symbol. -/
def refDep (got : Addr) (y : Option Symbol) (ref : Addr) : Option Addr :=
  match y with
  | some y =>
    if TLS.is_tls y.address = TLS.is_tls ref then
      if y.address = got ∧ ref - y.address < 24 then none
      else
        match if y.address = got then (Tree.find y.rels ref).filter (·.undefined) else none with
        | some _ => none
        | none => if y.bind = .global then none else some y.address
    else none
  | none => none

theorem refBytes_core (env : Env) (got : Addr) (y : Option Symbol) (ref : Addr) :
    refBytes env got (y.map core) ref = refBytes env got y ref := by
  cases y <;> rfl

theorem refDep_core (got : Addr) (y : Option Symbol) (ref : Addr) : refDep got (y.map core) ref = refDep got y ref := by
  cases y <;> rfl

/-- Extension of the dependencies. -/
def addDep (a : Addr) (z : Symbol) : Symbol := { z with deps := HSet.add z.deps a }

theorem extRefStep_eq (env : Env) (got a : Addr) (acc : SymTree × List (BitVec 8)) (ref : Addr) :
    extRefStep env got a acc ref =
      ((match refDep got (floor acc.1 ref) ref with
        | some b => Tree.modify acc.1 b (addDep a)
        | none => acc.1), acc.2 ++ refBytes env got (floor acc.1 ref) ref) := by
  unfold extRefStep refDep refBytes
  cases floor acc.1 ref with
  | none => rfl
  | some y =>
    simp only
    by_cases h1 : TLS.is_tls y.address = TLS.is_tls ref
    · rw [if_pos h1, if_pos h1, if_pos h1]
      by_cases h2 : y.address = got ∧ ref - y.address < 24
      · rw [if_pos h2, if_pos h2, if_pos h2]
      · rw [if_neg h2, if_neg h2, if_neg h2]
        generalize (if y.address = got then (Tree.find y.rels ref).filter (·.undefined) else none) = o
        cases o with
        | some rel => rfl
        | none =>
          simp only
          by_cases h3 : y.bind = .global
          · rw [if_pos h3, if_pos h3, if_pos h3]
          · rw [if_neg h3, if_neg h3, if_neg h3]
            rfl
    · rw [if_neg h1, if_neg h1, if_neg h1]

theorem core_addDep (a : Addr) (z : Symbol) : core (addDep a z) = core z := rfl

theorem core_modify (t : SymTree) (b : Addr) (f : Symbol → Symbol) (hf : ∀ z, core (f z) = core z) :
    (Tree.modify t b f).map core = t.map core := by
  unfold Tree.modify
  rw [List.map_map]
  refine List.map_congr_left (fun z _ => ?_)
  rw [Function.comp_apply]
  split
  · exact hf z
  · rfl

theorem floor_core {t t' : SymTree} (h : t'.map core = t.map core) (k : Addr) :
    (floor t' k).map core = (floor t k).map core := by
  rw [← floor_map (f := core) (fun _ => rfl), ← floor_map (f := core) (fun _ => rfl), h]

/-- Addresses of symbols whose dependencies are extended due to references. -/
def depTargets (got : Addr) (t0 : SymTree) (refs : List Addr) : List Addr :=
  refs.filterMap (fun r => refDep got (floor t0 r) r)

theorem hset_add_idem {α : Type} [DecidableEq α] (s : List α) (x : α) : HSet.add (HSet.add s x) x = HSet.add s x := by
  unfold HSet.add HSet.insert
  by_cases h : x ∈ s
  · simp [h]
  · simp [h]

/-- All references of a symbol: bytes added, and extended dependencies. -/
theorem extRefs_fold (env : Env) (got a : Addr) (t0 : SymTree) (refs : List Addr) (t : SymTree) (out : List (BitVec 8))
    (ht : t.map core = t0.map core) :
    refs.foldl (extRefStep env got a) (t, out) =
      (t.map (fun z => if z.address ∈ depTargets got t0 refs then addDep a z else z),
        out ++ refs.flatMap (fun r => refBytes env got (floor t0 r) r)) := by
  induction refs generalizing t out with
  | nil => simp [depTargets]
  | cons r refs ih =>
    rw [List.foldl_cons, extRefStep_eq]
    have e1 : refDep got (floor t r) r = refDep got (floor t0 r) r := by
      rw [← refDep_core, floor_core ht, refDep_core]
    have e2 : refBytes env got (floor t r) r = refBytes env got (floor t0 r) r := by
      rw [← refBytes_core, floor_core ht, refBytes_core]
    simp only
    rw [e1, e2]
    cases hd : refDep got (floor t0 r) r with
    | none =>
      simp only
      rw [ih t _ ht, List.flatMap_cons, List.append_assoc]
      have hdt : depTargets got t0 (r :: refs) = depTargets got t0 refs := by
        simp only [depTargets, List.filterMap_cons, hd]
      rw [hdt]
    | some b =>
      simp only
      rw [ih _ _ ((core_modify t b (addDep a) (core_addDep a)).trans ht), List.flatMap_cons, List.append_assoc]
      congr 1
      unfold Tree.modify
      rw [List.map_map]
      have hdt : depTargets got t0 (r :: refs) = b :: depTargets got t0 refs := by
        simp only [depTargets, List.filterMap_cons, hd]
      rw [hdt]
      refine List.map_congr_left (fun z _ => ?_)
      rw [Function.comp_apply]
      by_cases h1 : key z = b
      · have h2 : z.address ∈ b :: depTargets got t0 refs := by
          rw [show z.address = b from h1]
          exact List.mem_cons_self
        rw [if_pos h1, if_pos h2]
        by_cases h3 : (addDep a z).address ∈ depTargets got t0 refs
        · rw [if_pos h3]
          unfold addDep
          simp only [hset_add_idem]
        · rw [if_neg h3]
      · have h2 : z.address ∈ b :: depTargets got t0 refs ↔ z.address ∈ depTargets got t0 refs := by
          rw [List.mem_cons]
          exact or_iff_right h1
        rw [if_neg h1]
        simp only [h2]

/-! ### Relocations of a symbol -/

/-- References including targets of relocations. -/
def allRefs (z : Symbol) : List Addr :=
  z.rels.foldl (fun acc rel => if rel.target = 0 then acc else HSet.add acc rel.target) z.refs

theorem extRels_fold {b : Build} {a : Addr} {rels : List Rel} {out : List (BitVec 8)} {refs : List Addr}
    {r : List (BitVec 8) × List Addr} (h : rels.foldlM (extRelStep b a) (out, refs) = .ok r) :
    r = (out ++ rels.flatMap (extRelBytes a),
      rels.foldl (fun acc rel => if rel.target = 0 then acc else HSet.add acc rel.target) refs) := by
  induction rels generalizing out refs with
  | nil => cases h; simp
  | cons x rels ih =>
    rw [List.foldlM_cons] at h
    cases hx : extRelStep b a (out, refs) x with
    | error e => rw [hx] at h; cases h
    | ok c =>
      rw [hx] at h
      unfold extRelStep at hx
      have := (massert_bind_ok hx).2
      cases this
      rw [ih h, List.flatMap_cons, List.append_assoc, List.foldl_cons]

/-- The bytes of the external identifier. -/
def extInput (env : Env) (got : Addr) (t0 : SymTree) (z : Symbol) : List (BitVec 8) :=
  z.rels.flatMap (extRelBytes z.address) ++ (allRefs z).flatMap (fun r => refBytes env got (floor t0 r) r)

/-- Dependencies after some symbols (`done`) have been processed. -/
def depsAfter (got : Addr) (t0 done : SymTree) (z : Symbol) : List Addr :=
  done.foldl (fun d x => if z.address ∈ depTargets got t0 (allRefs x) then HSet.add d x.address else d) z.deps

/-- A symbol after some symbols (`done`) have been processed. -/
def extSym (env : Env) (got : Addr) (t0 done : SymTree) (z : Symbol) : Symbol :=
  { z with
    deps := depsAfter got t0 done z
    refs := if z.address ∈ done.map (·.address) then allRefs z else z.refs
    id := { z.id with external :=
      if z.address ∈ done.map (·.address) ∧ ¬ (z.rels = [] ∧ z.refs = []) then env.xxhash (extInput env got t0 z)
      else z.id.external } }

theorem extSym_core (env : Env) (got : Addr) (t0 done : SymTree) (z : Symbol) :
    core (extSym env got t0 done z) = core z := rfl

theorem extSym_nil (env : Env) (got : Addr) (t0 : SymTree) (z : Symbol) : extSym env got t0 [] z = z := by
  unfold extSym depsAfter
  simp

theorem allRefs_empty {z : Symbol} (h : z.rels = [] ∧ z.refs = []) : allRefs z = [] := by
  unfold allRefs
  rw [h.1, h.2]
  rfl

theorem extStep_closed {env : Env} {got : Addr} {t0 done todo t' : SymTree} {x : Symbol} (hs : Sorted t0)
    (ht : t0 = done ++ x :: todo) (h : extStep env got (t0.map (extSym env got t0 done)) x.address = .ok t') :
    t' = t0.map (extSym env got t0 (done ++ [x])) := by
  have hx : x ∈ t0 := by rw [ht]; simp
  have hnew : x.address ∉ done.map (·.address) := by
    intro hm
    obtain ⟨y, hy, e⟩ := List.mem_map.mp hm
    rw [ht] at hs
    have := (List.pairwise_append.mp hs).2.2 y hy x List.mem_cons_self
    change y.address < x.address at this
    rw [e] at this
    exact bv_lt_irrefl _ this
  have hfind : Tree.find (t0.map (extSym env got t0 done)) x.address = some (extSym env got t0 done x) := by
    rw [find_map (f := extSym env got t0 done) (fun _ => rfl), show Tree.find t0 x.address = some x from (find_eq_some_iff hs).mpr ⟨hx, rfl⟩]
    rfl
  unfold extStep at h
  rw [hfind] at h
  simp only at h
  have hrels : (extSym env got t0 done x).rels = x.rels := rfl
  have hrefs : (extSym env got t0 done x).refs = x.refs := by
    unfold extSym
    simp only [if_neg hnew]
  have haddr : (extSym env got t0 done x).address = x.address := rfl
  rw [hrels, hrefs, haddr] at h
  have hmem : ∀ z : Symbol, z.address ∈ (done ++ [x]).map (·.address) ↔
      z.address ∈ done.map (·.address) ∨ z.address = x.address := by
    intro z; simp
  have hdeps : ∀ z, depsAfter got t0 (done ++ [x]) z =
      if z.address ∈ depTargets got t0 (allRefs x) then HSet.add (depsAfter got t0 done z) x.address
      else depsAfter got t0 done z := by
    intro z
    unfold depsAfter
    rw [List.foldl_append]
    rfl
  have hinj : ∀ z ∈ t0, z.address = x.address → z = x := fun z hz e => hs.inj hz hx e
  by_cases he : x.rels = [] ∧ x.refs = []
  · have hc : (x.rels.isEmpty && x.refs.isEmpty) = true := by rw [he.1, he.2]; rfl
    rw [if_pos hc] at h
    cases h
    refine List.map_congr_left (fun z hz => ?_)
    unfold extSym
    rw [hdeps, allRefs_empty he]
    simp only [depTargets, List.filterMap_nil, List.not_mem_nil, if_false, hmem]
    by_cases hzx : z.address = x.address
    · cases hinj z hz hzx
      simp only [hnew, if_false, he, and_self, not_true, and_false, or_true, if_true]
      rw [allRefs_empty he]
    · simp only [hzx, or_false]
  · have hc : ¬ (x.rels.isEmpty && x.refs.isEmpty) = true := by
      intro hc
      simp only [Bool.and_eq_true, List.isEmpty_iff] at hc
      exact he hc
    rw [if_neg hc] at h
    cases ha : x.rels.foldlM (extRelStep env.build x.address) ([], x.refs) with
    | error e => rw [ha] at h; cases h
    | ok a =>
      rw [ha] at h
      have hae := extRels_fold ha
      simp only [List.nil_append] at hae
      subst hae
      change Except.ok _ = Except.ok _ at h
      have h' := Except.ok.inj h
      rw [← h']
      simp only
      rw [extRefs_fold env got x.address t0]
      · simp only
        unfold Tree.modify
        rw [List.map_map, List.map_map, List.map_map]
        refine List.map_congr_left (fun z hz => ?_)
        simp only [Function.comp_apply]
        by_cases hzx : z.address = x.address
        · cases hinj z hz hzx
          have k1 : key (extSym env got t0 done x) = x.address := rfl
          rw [if_pos k1]
          by_cases hd : x.address ∈ depTargets got t0 (allRefs x)
          · have hd' : x.address ∈ depTargets got t0
                (x.rels.foldl (fun acc rel => if rel.target = 0 then acc else HSet.add acc rel.target) x.refs) := hd
            unfold extSym
            simp only [hd', if_true, addDep]
            rw [if_pos (show key _ = x.address from rfl), hdeps, if_pos hd]
            simp only [hmem, or_true, if_true, he, not_false_eq_true, and_self]
            rfl
          · have hd' : ¬ x.address ∈ depTargets got t0
                (x.rels.foldl (fun acc rel => if rel.target = 0 then acc else HSet.add acc rel.target) x.refs) := hd
            unfold extSym
            simp only [hd', if_false]
            rw [if_pos (show key _ = x.address from rfl), hdeps, if_neg hd]
            simp only [hmem, or_true, if_true, he, not_false_eq_true, and_self]
            rfl
        · have k1 : ¬ key (extSym env got t0 done z) = x.address := hzx
          rw [if_neg k1]
          by_cases hd : z.address ∈ depTargets got t0 (allRefs x)
          · have hd' : z.address ∈ depTargets got t0
                (x.rels.foldl (fun acc rel => if rel.target = 0 then acc else HSet.add acc rel.target) x.refs) := hd
            unfold extSym
            simp only [hd', if_true, addDep]
            rw [if_neg (show ¬ key _ = x.address from hzx), hdeps, if_pos hd]
            simp only [hmem, hzx, or_false]
          · have hd' : ¬ z.address ∈ depTargets got t0
                (x.rels.foldl (fun acc rel => if rel.target = 0 then acc else HSet.add acc rel.target) x.refs) := hd
            unfold extSym
            simp only [hd', if_false]
            rw [if_neg (show ¬ key _ = x.address from hzx), hdeps, if_neg hd]
            simp only [hmem, hzx, or_false]
      · rw [core_modify]
        · rw [List.map_map]; rfl
        · intro z; rfl

/-- Closed form of the external identifiers and dependencies. -/
theorem hashExternal_closed {env : Env} {st r : AState} (hs : Sorted st.symbols) (h : hashExternal env st = .ok r) :
    r = { st with
      symbols := st.symbols.map (extSym env st.global_offset_table st.symbols st.symbols) } := by
  unfold hashExternal at h
  have key : ∀ (todo done : SymTree) (t : SymTree), st.symbols = done ++ todo →
      (todo.map (·.address)).foldlM (extStep env st.global_offset_table)
        (st.symbols.map (extSym env st.global_offset_table st.symbols done)) = .ok t →
      t = st.symbols.map (extSym env st.global_offset_table st.symbols st.symbols) := by
    intro todo
    induction todo with
    | nil =>
      intro done t e h
      rw [List.append_nil] at e
      cases h
      rw [← e]
    | cons x todo ih =>
      intro done t e h
      rw [List.map_cons, List.foldlM_cons] at h
      cases hx : extStep env st.global_offset_table
          (st.symbols.map (extSym env st.global_offset_table st.symbols done)) x.address with
      | error e => rw [hx] at h; cases h
      | ok t1 =>
        rw [hx] at h
        rw [extStep_closed hs e hx] at h
        exact ih (done ++ [x]) t (by rw [e]; simp) h
  cases h1 : (st.symbols.map (·.address)).foldlM (extStep env st.global_offset_table) st.symbols with
  | error e => rw [h1] at h; cases h
  | ok t =>
    rw [h1] at h
    cases h
    have h2 : st.symbols.map (extSym env st.global_offset_table st.symbols []) = st.symbols := by
      rw [show (extSym env st.global_offset_table st.symbols []) = id from funext (extSym_nil env _ _), List.map_id]
    rw [key st.symbols [] t rfl (by rw [h2]; exact h1)]

end Bean

import Verif.Spec.Rebase
import Verif.Lemmas.Tree
import Verif.Lemmas.Tls
/-
Moved addresses, trees and computations (C100).
-/
namespace Bean
open Bean.Spec

/-! ### Addresses -/

/-- The address does not wrap around if moved. -/
def NoOver (k a : Addr) : Prop := a.toNat + k.toNat < 2 ^ 64

theorem add_toNat {k a : Addr} (h : NoOver k a) : (a + k).toNat = a.toNat + k.toNat := by
  rw [BitVec.toNat_add, Nat.mod_eq_of_lt h]

theorem add_lt_iff {k a b : Addr} (ha : NoOver k a) (hb : NoOver k b) : a + k < b + k ↔ a < b := by
  rw [BitVec.lt_def, BitVec.lt_def, add_toNat ha, add_toNat hb]; omega

theorem add_le_iff {k a b : Addr} (ha : NoOver k a) (hb : NoOver k b) : a + k ≤ b + k ↔ a ≤ b := by
  rw [BitVec.le_def, BitVec.le_def, add_toNat ha, add_toNat hb]; omega

theorem add_inj_iff {k a b : Addr} : a + k = b + k ↔ a = b := by bv_omega

theorem sub_shift (k a b : Addr) : a + k - (b + k) = a - b := by bv_omega

theorem add_swap (k a b : Addr) : a + k + b = a + b + k := by bv_omega

theorem Spec.Low.noWrap {k a : Addr} (h : Low k a) : NoOver k a := by unfold Low at h; unfold NoOver; omega

theorem Spec.Low.regular {k a : Addr} (h : Low k a) : TLS.is_tls a = false := by
  rw [TLS.is_tls_eq_false_iff]
  exact TLS.regular_of_lt (by unfold Low at h; omega)

theorem Spec.Low.regular_add {k a : Addr} (h : Low k a) : TLS.is_tls (a + k) = false := by
  rw [TLS.is_tls_eq_false_iff]
  refine TLS.regular_of_lt ?_
  rw [add_toNat h.noWrap]
  unfold Low at h; omega

theorem trans_toNat {a : Addr} (t : Bool) (h : a.toNat < 2 ^ 52) :
    (TLS.trans_addr a t).toNat = a.toNat + if t then 0xf0000000000000 else 0 := by
  cases t with
  | false => rw [TLS.trans_false]; simp
  | true => rw [TLS.trans_true_toNat h]; simp

theorem Spec.Low.trans {k a : Addr} (h : Low k a) (t : Bool) : TLS.trans_addr (a + k) t = TLS.trans_addr a t + k := by
  have h1 : a.toNat < 2 ^ 52 := by unfold Low at h; omega
  have h2 : (a + k).toNat < 2 ^ 52 := by rw [add_toNat h.noWrap]; unfold Low at h; omega
  refine BitVec.eq_of_toNat_eq ?_
  rw [trans_toNat t h2, add_toNat h.noWrap, BitVec.toNat_add, trans_toNat t h1]
  unfold Low at h
  split <;> omega

theorem Spec.LowT.lt {tls : Bool} {k a : Addr} (h : LowT tls k a) : a.toNat + k.toNat < 2 ^ 56 := by
  obtain ⟨v, t, hv, _, rfl⟩ := h
  unfold Low at hv
  rw [trans_toNat t (by omega)]
  split <;> omega

theorem Spec.LowT.noWrap {tls : Bool} {k a : Addr} (h : LowT tls k a) : NoOver k a := by
  have := h.lt; unfold NoOver; omega

theorem Spec.LowT.virt_low {tls : Bool} {k a : Addr} (h : LowT tls k a) : Low k (TLS.virt_addr a) := by
  obtain ⟨v, t, hv, _, rfl⟩ := h
  rw [TLS.virt_trans v t hv.regular]
  exact hv

theorem Spec.LowT.virt {tls : Bool} {k a : Addr} (h : LowT tls k a) : TLS.virt_addr (a + k) = TLS.virt_addr a + k := by
  obtain ⟨v, t, hv, _, rfl⟩ := h
  rw [← hv.trans, TLS.virt_trans v t hv.regular, TLS.virt_trans _ t hv.regular_add]

theorem Spec.LowT.is_tls {tls : Bool} {k a : Addr} (h : LowT tls k a) : TLS.is_tls (a + k) = TLS.is_tls a := by
  obtain ⟨v, t, hv, _, rfl⟩ := h
  rw [← hv.trans, TLS.is_tls_trans v t hv.regular, TLS.is_tls_trans _ t hv.regular_add]

theorem Spec.LowT.has_tls {tls : Bool} {k a : Addr} (h : LowT tls k a) (ht : TLS.is_tls a = true) : tls = true := by
  obtain ⟨v, t, hv, h', rfl⟩ := h
  rw [TLS.is_tls_trans v t hv.regular] at ht
  exact h' ht

theorem Spec.LowT.ref {tls : Bool} {k a : Addr} (h : LowT tls k a) : rebaseRef tls k a = a + k := by
  unfold rebaseRef
  rw [if_neg]
  rintro ⟨ht, hf⟩
  rw [h.has_tls ht] at hf
  cases hf

theorem Spec.Low.lowT {tls : Bool} {k a : Addr} (h : Low k a) : LowT tls k a :=
  ⟨a, false, h, fun h => (by cases h), (TLS.trans_false a).symm⟩

theorem Spec.LowT.low {tls : Bool} {k a : Addr} (h : LowT tls k a) (hr : TLS.is_tls a = false) : Low k a := by
  obtain ⟨v, t, hv, h', rfl⟩ := h
  rw [TLS.is_tls_trans v t hv.regular] at hr
  subst hr
  rw [TLS.trans_false]; exact hv

theorem Spec.AddressedT.lowT {tls : Bool} {k a : Addr} (h : AddressedT tls k a) : LowT tls k a := by
  obtain ⟨v, t, hv, h', e⟩ := h
  exact ⟨v, t, hv.2, h', e⟩

theorem Spec.AddressedT.virt {tls : Bool} {k a : Addr} (h : AddressedT tls k a) : Addressed k (TLS.virt_addr a) := by
  obtain ⟨v, t, hv, h', rfl⟩ := h
  rw [TLS.virt_trans v t hv.2.regular]
  exact hv

theorem Spec.Addressed.trans {tls : Bool} {k a : Addr} (h : Addressed k a) {t : Bool} (ht : t = true → tls = true) :
    AddressedT tls k (TLS.trans_addr a t) := ⟨a, t, h, ht, rfl⟩

theorem Spec.Addressed.addressedT {tls : Bool} {k a : Addr} (h : Addressed k a) : AddressedT tls k a :=
  ⟨a, false, h, fun h => (by cases h), (TLS.trans_false a).symm⟩

theorem Spec.Addressed.zero {k a : Addr} (h : Addressed k a) : rebaseZero k a = a + k := if_neg h.1

theorem Spec.Addressed.add_ne {k a : Addr} (h : Addressed k a) : a + k ≠ 0 := by
  intro e
  have := congrArg BitVec.toNat e
  rw [add_toNat h.2.noWrap] at this
  have h0 : a.toNat ≠ 0 := fun e => h.1 (BitVec.eq_of_toNat_eq e)
  rw [show BitVec.toNat (0 : Addr) = 0 from rfl] at this
  omega

/-- Zero, or an address. -/
def ZeroOr (k a : Addr) : Prop := a = 0 ∨ Addressed k a

theorem ZeroOr.eq_zero {k a : Addr} (h : ZeroOr k a) : rebaseZero k a = 0 ↔ a = 0 := by
  rcases h with rfl | h
  · simp [rebaseZero]
  · rw [h.zero]
    exact ⟨fun e => absurd e h.add_ne, fun e => absurd e h.1⟩

theorem rebaseZero_zero (k : Addr) : rebaseZero k 0 = 0 := rfl

/-- Comparison with the address of the table that may not exist. -/
theorem ZeroOr.eq_iff {k a b : Addr} (ha : Addressed k a) (hb : ZeroOr k b) : a + k = rebaseZero k b ↔ a = b := by
  rcases hb with rfl | h
  · rw [rebaseZero_zero]
    exact ⟨fun e => absurd e ha.add_ne, fun e => absurd e ha.1⟩
  · rw [h.zero]; exact add_inj_iff

theorem Spec.LowRange.low {k a n : Addr} (h : LowRange k a n) : Low k a := by unfold LowRange at h; unfold Low; omega

theorem Spec.LowRange.end_ {k a n : Addr} (h : LowRange k a n) : Low k (a + n) := by
  unfold LowRange at h; unfold Low
  rw [BitVec.toNat_add]; omega

theorem Spec.LowRange.end_toNat {k a n : Addr} (h : LowRange k a n) : (a + n).toNat = a.toNat + n.toNat := by
  unfold LowRange at h
  rw [BitVec.toNat_add]; omega

theorem Spec.LowRange.size {k a n : Addr} (h : LowRange k a n) : n.toNat < 2 ^ 51 := by unfold LowRange at h; omega

theorem Spec.LowRange.endAddr {k a n : Addr} (h : LowRange k a n) (ha : a ≠ 0) : Addressed k (a + n) := by
  refine ⟨fun e => ?_, h.end_⟩
  have := congrArg BitVec.toNat e
  rw [h.end_toNat] at this
  have h0 : a.toNat ≠ 0 := fun e => ha (BitVec.eq_of_toNat_eq e)
  rw [show BitVec.toNat (0 : Addr) = 0 from rfl] at this
  omega

/-! ### References -/

/-- References that can be moved. -/
def GoodRef (tls : Bool) (k a : Addr) : Prop := LowT tls k a ∨ (tls = false ∧ TLS.is_tls a = true)

theorem rebaseRef_fixed {tls : Bool} {k a : Addr} (h : tls = false ∧ TLS.is_tls a = true) : rebaseRef tls k a = a :=
  if_pos ⟨h.2, h.1⟩

theorem rebaseRef_inj {tls : Bool} {k a b : Addr} (ha : GoodRef tls k a) (hb : GoodRef tls k b) :
    rebaseRef tls k a = rebaseRef tls k b ↔ a = b := by
  refine ⟨fun e => ?_, fun e => by rw [e]⟩
  have mixed : ∀ {a b : Addr}, LowT tls k a → tls = false ∧ TLS.is_tls b = true → a + k ≠ b := by
    intro a b ha hb e
    have h1 := ha.is_tls
    rw [e, hb.2] at h1
    have := ha.has_tls h1.symm
    rw [hb.1] at this; cases this
  rcases ha with ha | ha <;> rcases hb with hb | hb
  · rw [ha.ref, hb.ref] at e; exact add_inj_iff.mp e
  · rw [ha.ref, rebaseRef_fixed hb] at e; exact absurd e (mixed ha hb)
  · rw [rebaseRef_fixed ha, hb.ref] at e; exact absurd e.symm (mixed hb ha)
  · rw [rebaseRef_fixed ha, rebaseRef_fixed hb] at e; exact e

theorem hset_add_map {α β : Type} [DecidableEq α] [DecidableEq β] {g : α → β} {l : List α} {x : α}
    (h : ∀ y ∈ l, g x = g y → x = y) : HSet.add (l.map g) (g x) = (HSet.add l x).map g := by
  unfold HSet.add HSet.insert
  have hm : g x ∈ l.map g ↔ x ∈ l := by
    constructor
    · intro hx
      obtain ⟨y, hy, e⟩ := List.mem_map.mp hx
      rw [h y hy e.symm]; exact hy
    · exact fun hx => List.mem_map_of_mem hx
  by_cases hx : x ∈ l
  · rw [if_pos (hm.mpr hx), if_pos hx]
  · rw [if_neg (fun h => hx (hm.mp h)), if_neg hx]; simp

theorem refs_add {tls : Bool} {k : Addr} {l : List Addr} {x : Addr} (hl : ∀ y ∈ l, GoodRef tls k y) (hx : GoodRef tls k x) :
    HSet.add (l.map (rebaseRef tls k)) (rebaseRef tls k x) = (HSet.add l x).map (rebaseRef tls k) :=
  hset_add_map (fun _ hy e => (rebaseRef_inj hx (hl _ hy)).mp e)

/-! ### Trees -/

section
variable {α : Type} [Keyed α] {g : α → α} {k : Addr}

/-- The elements are moved. -/
def Shifts (g : α → α) (k : Addr) (x : α) : Prop := key (g x) = key x + k ∧ NoOver k (key x)

theorem insert_shift {t : List α} {x : α} (hx : Shifts g k x) (ht : ∀ y ∈ t, Shifts g k y) :
    Tree.insert (t.map g) (g x) = ((Tree.insert t x).1.map g, (Tree.insert t x).2) := by
  induction t with
  | nil => rfl
  | cons y ys ih =>
    have hy := ht y List.mem_cons_self
    simp only [List.map_cons, Tree.insert, hx.1, hy.1, add_lt_iff hx.2 hy.2, add_inj_iff]
    split
    · rfl
    · split
      · rfl
      · rw [ih (fun z hz => ht z (List.mem_cons_of_mem _ hz))]; rfl

theorem find_shift {t : List α} (ht : ∀ y ∈ t, key (g y) = key y + k) (a : Addr) :
    Tree.find (t.map g) (a + k) = (Tree.find t a).map g := by
  unfold Tree.find
  induction t with
  | nil => rfl
  | cons y ys ih =>
    simp only [List.map_cons, List.find?_cons, ht y List.mem_cons_self]
    have : (key y + k == a + k) = (key y == a) := by
      rw [Bool.eq_iff_iff]; simp only [beq_iff_eq]; exact add_inj_iff
    rw [this]
    cases key y == a with
    | true => rfl
    | false => exact ih (fun z hz => ht z (List.mem_cons_of_mem _ hz))

theorem filter_le_shift {t : List α} (ht : ∀ y ∈ t, Shifts g k y) {a : Addr} (ha : NoOver k a) :
    (t.map g).filter (fun x => decide (key x ≤ a + k)) = (t.filter (fun x => decide (key x ≤ a))).map g := by
  rw [List.filter_map]
  congr 1
  refine List.filter_congr fun x hx => ?_
  simp only [Function.comp_def, (ht x hx).1, add_le_iff (ht x hx).2 ha]

theorem floor_shift {t : List α} (ht : ∀ y ∈ t, Shifts g k y) {a : Addr} (ha : NoOver k a) :
    Tree.floor (t.map g) (a + k) = (Tree.floor t a).map g := by
  unfold Tree.floor
  rw [filter_le_shift ht ha, List.getLast?_map]

theorem filter_ge_shift {t : List α} (ht : ∀ y ∈ t, Shifts g k y) {a : Addr} (ha : NoOver k a) :
    (t.map g).filter (fun x => decide (a + k ≤ key x)) = (t.filter (fun x => decide (a ≤ key x))).map g := by
  rw [List.filter_map]
  congr 1
  refine List.filter_congr fun x hx => ?_
  simp only [Function.comp_def, (ht x hx).1, add_le_iff ha (ht x hx).2]

theorem ceil_shift {t : List α} (ht : ∀ y ∈ t, Shifts g k y) {a : Addr} (ha : NoOver k a) :
    Tree.ceil (t.map g) (a + k) = (Tree.ceil t a).map g := by
  unfold Tree.ceil
  induction t with
  | nil => rfl
  | cons y ys ih =>
    have hy := ht y List.mem_cons_self
    simp only [List.map_cons, List.find?_cons, hy.1, add_le_iff ha hy.2]
    cases decide (a ≤ key y) with
    | true => rfl
    | false => exact ih (fun z hz => ht z (List.mem_cons_of_mem _ hz))

theorem takeWhile_shift {t : List α} (ht : ∀ y ∈ t, Shifts g k y) {a : Addr} (ha : NoOver k a) :
    (t.map g).takeWhile (fun x => decide (key x < a + k)) = (t.takeWhile (fun x => decide (key x < a))).map g := by
  induction t with
  | nil => rfl
  | cons y ys ih =>
    have hy := ht y List.mem_cons_self
    simp only [List.map_cons, List.takeWhile_cons, hy.1, add_lt_iff hy.2 ha]
    cases decide (key y < a) with
    | true => simp only [if_true, List.map_cons]; rw [ih (fun z hz => ht z (List.mem_cons_of_mem _ hz))]
    | false => rfl

theorem range_shift {t : List α} (ht : ∀ y ∈ t, Shifts g k y) {a b : Addr} (ha : NoOver k a) (hb : NoOver k b) :
    treeRange (t.map g) (a + k) (b + k) = (treeRange t a b).map g := by
  unfold treeRange
  rw [filter_ge_shift ht ha, takeWhile_shift (fun y hy => ht y (List.mem_filter.mp hy).1) hb]

theorem range_mem {t : List α} {a b : Addr} {x : α} (h : x ∈ treeRange t a b) : x ∈ t ∧ a ≤ key x ∧ key x < b := by
  unfold treeRange at h
  have h1 : ∀ {l : List α}, x ∈ l.takeWhile (fun x => decide (key x < b)) → key x < b := by
    intro l
    induction l with
    | nil => intro h; cases h
    | cons y l ih =>
      intro h
      rw [List.takeWhile_cons] at h
      by_cases hy : key y < b
      · simp only [hy, decide_true, if_true] at h
        rcases List.mem_cons.mp h with rfl | h
        · exact hy
        · exact ih h
      · simp only [hy, decide_false] at h
        cases h
  replace h1 := h1 h
  have h2 := List.mem_filter.mp ((List.takeWhile_sublist _).subset h)
  exact ⟨h2.1, by simpa using h2.2, h1⟩

theorem modify_shift {t : List α} {f f' : α → α} {a : Addr} (ht : ∀ y ∈ t, key (g y) = key y + k)
    (hf : ∀ y ∈ t, key y = a → g (f y) = f' (g y)) :
    Tree.modify (t.map g) (a + k) f' = (Tree.modify t a f).map g := by
  unfold Tree.modify
  rw [List.map_map, List.map_map]
  refine List.map_congr_left fun x hx => ?_
  simp only [Function.comp_def, ht x hx, add_inj_iff]
  split
  · exact (hf x hx (by assumption)).symm
  · rfl

theorem erase_shift {t : List α} {a : Addr} (ht : ∀ y ∈ t, key (g y) = key y + k) :
    Tree.erase (t.map g) (a + k) = (Tree.erase t a).map g := by
  unfold Tree.erase
  rw [List.filter_map]
  congr 1
  refine List.filter_congr fun x hx => ?_
  simp only [Function.comp_def, ht x hx]
  rw [Bool.eq_iff_iff]; simp only [bne_iff_ne, ne_eq, add_inj_iff]

theorem foldl_insert_shift {l t : List α} (hl : ∀ y ∈ l, Shifts g k y) (ht : ∀ y ∈ t, Shifts g k y) :
    (l.map g).foldl (fun t x => (Tree.insert t x).1) (t.map g) = (l.foldl (fun t x => (Tree.insert t x).1) t).map g := by
  induction l generalizing t with
  | nil => rfl
  | cons x l ih =>
    have hx := hl x List.mem_cons_self
    rw [List.map_cons, List.foldl_cons, insert_shift hx ht, List.foldl_cons]
    refine ih (fun y hy => hl y (List.mem_cons_of_mem _ hy)) (fun y hy => ?_)
    rcases Tree.mem_insert.mp hy with hy | ⟨rfl, _⟩
    · exact ht y hy
    · exact hx

end

/-! ### Computations -/

/-- If the first computation succeeds, the second one delivers the moved result. -/
def Carries {α β : Type} (g : α → β) (P : α → Prop) (m : M α) (m' : M β) : Prop := ∀ a, m = .ok a → m' = .ok (g a) ∧ P a

namespace Carries
variable {α β γ δ : Type}

theorem ok {g : α → β} {P : α → Prop} {a : α} {b : β} (e : b = g a) (h : P a) : Carries g P (.ok a) (.ok b) := by
  intro x hx
  cases hx
  exact ⟨by rw [e], h⟩

theorem error {g : α → β} {P : α → Prop} {e : Fault} {m' : M β} : Carries g P (.error e) m' := fun _ h => by cases h

theorem bind {g : α → β} {P : α → Prop} {g' : γ → δ} {Q : γ → Prop} {m : M α} {m' : M β} {f : α → M γ} {f' : β → M δ}
    (h : Carries g P m m') (hf : ∀ a, P a → Carries g' Q (f a) (f' (g a))) : Carries g' Q (m >>= f) (m' >>= f') := by
  intro c hc
  cases hm : m with
  | error e => rw [hm] at hc; cases hc
  | ok a =>
    rw [hm] at hc
    obtain ⟨h1, h2⟩ := h a hm
    rw [h1]
    exact hf a h2 c hc

theorem assert {g : α → β} {P : α → Prop} {b : Build} {c c' : Bool} {f : Unit → M α} {f' : Unit → M β}
    (hc : c = true → c' = true) (h : Carries g P (f ()) (f' ())) :
    Carries g P (massert b c >>= f) (massert b c' >>= f') := by
  refine bind (g := id) (P := fun _ => True) ?_ (fun _ _ => h)
  intro u hu
  refine ⟨?_, trivial⟩
  cases b <;> cases c <;> cases c' <;> first | rfl | (cases hu; done) | exact absurd (hc rfl) (by simp)

theorem deref {g : α → β} {b : Build} {o : Option α} {o' : Option β} (h : o' = o.map g) :
    Carries g (fun a => o = some a) (mderef b o) (mderef b o') := by
  subst h
  cases o with
  | none => cases b <;> exact error
  | some a => exact ok rfl rfl

theorem mono {g : α → β} {P Q : α → Prop} {m : M α} {m' : M β} (h : Carries g P m m') (hp : ∀ a, P a → Q a) :
    Carries g Q m m' := fun a ha => ⟨(h a ha).1, hp a (h a ha).2⟩

/-- What is known about the first computation anyway. -/
theorem also {g : α → β} {P Q : α → Prop} {m : M α} {m' : M β} (h : Carries g P m m') (hq : ∀ a, m = .ok a → Q a) :
    Carries g (fun a => P a ∧ Q a) m m' := fun a ha => ⟨(h a ha).1, (h a ha).2, hq a ha⟩

theorem foldlM {σ σ' : Type} {g : σ → σ'} {P : σ → Prop} {f : σ → α → M σ} {f' : σ' → β → M σ'} {k : α → β} {l : List α}
    (h : ∀ x ∈ l, ∀ s, P s → Carries g P (f s x) (f' (g s) (k x))) {s : σ} (hs : P s) :
    Carries g P (l.foldlM f s) ((l.map k).foldlM f' (g s)) := by
  induction l generalizing s with
  | nil => exact ok rfl hs
  | cons x l ih =>
    rw [List.map_cons, List.foldlM_cons, List.foldlM_cons]
    exact bind (h x List.mem_cons_self s hs) (fun a ha => ih (fun y hy => h y (List.mem_cons_of_mem _ hy)) ha)

theorem ite {g : α → β} {P : α → Prop} {p q : Prop} [Decidable p] [Decidable q] {m n : M α} {m' n' : M β} (h : q ↔ p)
    (h1 : p → Carries g P m m') (h2 : ¬ p → Carries g P n n') : Carries g P (if p then m else n) (if q then m' else n') := by
  by_cases hp : p
  · rw [if_pos hp, if_pos (h.mpr hp)]; exact h1 hp
  · rw [if_neg hp, if_neg (fun hq => hp (h.mp hq))]; exact h2 hp

end Carries

end Bean

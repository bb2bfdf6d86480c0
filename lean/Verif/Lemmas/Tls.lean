import Verif.Model.Symbol
/-
Bit-level facts about `Bean::TLS`.
-/
namespace Bean
namespace TLS

theorem is_tls_eq_false_iff (a : Addr) : is_tls a = false ↔ a &&& ADDRESS_FLAG = 0#64 := by
  simp [is_tls]

theorem trans_false (a : Addr) : trans_addr a false = a := by simp [trans_addr]

theorem virt_of_regular {a : Addr} (h : is_tls a = false) : virt_addr a = a := by
  rw [is_tls_eq_false_iff] at h
  unfold virt_addr
  ext i hi
  have hb : (a &&& ADDRESS_FLAG)[i] = false := by rw [h]; simp
  simp only [BitVec.getElem_and, BitVec.getElem_not] at hb ⊢
  cases ha : a[i] <;> simp_all

theorem virt_trans (a : Addr) (t : Bool) (h : is_tls a = false) : virt_addr (trans_addr a t) = a := by
  cases t with
  | false => rw [trans_false]; exact virt_of_regular h
  | true =>
    rw [is_tls_eq_false_iff] at h
    unfold virt_addr trans_addr
    ext i hi
    have hb : (a &&& ADDRESS_FLAG)[i] = false := by rw [h]; simp
    simp only [BitVec.getElem_and, BitVec.getElem_not, BitVec.getElem_or, if_true] at hb ⊢
    cases ha : a[i] <;> cases hf : ADDRESS_FLAG[i] <;> simp_all

theorem is_tls_trans (a : Addr) (t : Bool) (h : is_tls a = false) : is_tls (trans_addr a t) = t := by
  cases t with
  | false => rw [trans_false]; exact h
  | true =>
    have hb : (trans_addr a true &&& ADDRESS_FLAG).getLsbD 52 = true := by
      unfold trans_addr ADDRESS_FLAG
      simp only [if_true, BitVec.getLsbD_and, BitVec.getLsbD_or]
      simp
    unfold is_tls
    simp only [bne_iff_ne, ne_eq]
    intro h0
    rw [h0] at hb
    simp at hb

/-- Thread local addresses are recognized whatever the address was. -/
theorem is_tls_trans_true (a : Addr) : is_tls (trans_addr a true) = true := by
  have hb : (trans_addr a true &&& ADDRESS_FLAG).getLsbD 52 = true := by
    unfold trans_addr ADDRESS_FLAG
    simp only [if_true, BitVec.getLsbD_and, BitVec.getLsbD_or]
    simp
  unfold is_tls
  simp only [bne_iff_ne, ne_eq]
  intro h0
  rw [h0] at hb
  simp at hb

theorem virt_regular (a : Addr) : is_tls (virt_addr a) = false := by
  rw [is_tls_eq_false_iff]
  unfold virt_addr
  ext i hi
  simp only [BitVec.getElem_and, BitVec.getElem_not, BitVec.getElem_zero]
  cases a[i] <;> cases ADDRESS_FLAG[i] <;> rfl

/-- Low addresses do not use the flag bits. -/
theorem regular_of_lt {a : Addr} (h : a.toNat < 2 ^ 52) : a &&& ADDRESS_FLAG = 0#64 := by
  ext i hi
  simp only [BitVec.getElem_and, BitVec.getElem_zero]
  by_cases h52 : i < 52
  · have : ADDRESS_FLAG.getLsbD i = false := by
      unfold ADDRESS_FLAG
      have key : ∀ j : Fin 52, (0xf0000000000000#64).getLsbD j.val = false := by decide
      exact key ⟨i, h52⟩
    rw [← BitVec.getLsbD_eq_getElem (i := i) hi, ← BitVec.getLsbD_eq_getElem (i := i) hi, this]; simp
  · have : a.getLsbD i = false := by
      rw [BitVec.getLsbD, Nat.testBit_lt_two_pow]
      exact Nat.lt_of_lt_of_le h (Nat.pow_le_pow_right (by omega) (by omega))
    rw [← BitVec.getLsbD_eq_getElem (i := i) hi, this]; simp

theorem trans_true_toNat {a : Addr} (h : a.toNat < 2 ^ 52) :
    (trans_addr a true).toNat = a.toNat + 0xf0000000000000 := by
  have h0 := regular_of_lt h
  unfold trans_addr
  simp only [if_true]
  rw [← BitVec.add_eq_or_of_and_eq_zero _ _ h0]
  unfold ADDRESS_FLAG
  rw [BitVec.toNat_add]
  simp only [BitVec.toNat_ofNat]
  omega

end TLS
end Bean

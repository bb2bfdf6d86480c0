import Verif.Lemmas.Tls
/-
Property theorems C01 and C02: address translation for thread-local symbols.
-/
namespace Bean.Props
open Bean TLS

/-- C01: translation is inverted by `virt_addr` and `is_tls` recovers the address space, for each address
without flag bits. -/
theorem C01_tls_roundtrip (a : Addr) (t : Bool) (h : a &&& 0xf0000000000000#64 = 0#64) :
    virt_addr (trans_addr a t) = a ∧ is_tls (trans_addr a t) = t :=
  have h' : is_tls a = false := (is_tls_eq_false_iff a).mpr h
  ⟨virt_trans a t h', is_tls_trans a t h'⟩

/-- C01: no collisions – address space and address are both determined by the translated address. -/
theorem C01_tls_injective (a b : Addr) (t u : Bool) (ha : a &&& 0xf0000000000000#64 = 0#64)
    (hb : b &&& 0xf0000000000000#64 = 0#64) (e : trans_addr a t = trans_addr b u) : a = b ∧ t = u := by
  have h1 := C01_tls_roundtrip a t ha
  have h2 := C01_tls_roundtrip b u hb
  rw [e] at h1
  exact ⟨h1.1.symm.trans h2.1, h1.2.symm.trans h2.2⟩

/-- C01: regular addresses are left alone by the translation. -/
theorem C01_tls_regular (a : Addr) : trans_addr a false = a := trans_false a

/-- C01: for any 64-bit value (also with flag bits) `virt_addr` yields a regular address and is idempotent, and
flag bits plus virtual address reconstruct the value. -/
theorem C01_virt_addr_any (a : Addr) :
    is_tls (virt_addr a) = false ∧ virt_addr (virt_addr a) = virt_addr a
      ∧ virt_addr a ||| (a &&& 0xf0000000000000#64) = a := by
  refine ⟨virt_regular a, virt_of_regular (virt_regular a), ?_⟩
  unfold virt_addr ADDRESS_FLAG
  ext i hi
  simp only [BitVec.getElem_and, BitVec.getElem_not, BitVec.getElem_or]
  cases a[i] <;> cases (0xf0000000000000#64)[i] <;> rfl

/-- hypotheses of C01 are satisfiable by a typical address -/
example : (0x401000#64 &&& 0xf0000000000000#64 = 0#64) ∧ trans_addr 0x401000#64 true = 0xf0000000401000#64 := by
  decide

/-- C01: the restriction to addresses without flag bits is necessary. -/
theorem C01_flag_bits_are_lost : ∃ a : Addr, virt_addr (trans_addr a true) ≠ a ∧ is_tls (trans_addr a false) = true :=
  ⟨0x10000000000000#64, by decide⟩

/-- C02: translation keeps the order inside of an address space. -/
theorem C02_tls_order (a b : Addr) (t : Bool) (ha : a.toNat < 2 ^ 52) (hb : b.toNat < 2 ^ 52) :
    trans_addr a t < trans_addr b t ↔ a < b := by
  cases t with
  | false => simp only [trans_false]
  | true =>
    rw [BitVec.lt_def, BitVec.lt_def, trans_true_toNat ha, trans_true_toNat hb]; omega

/-- C02: thread-local addresses come after all regular ones. -/
theorem C02_tls_last (a b : Addr) (ha : a.toNat < 2 ^ 52) (hb : b.toNat < 2 ^ 52) :
    trans_addr a false < trans_addr b true := by
  rw [BitVec.lt_def, trans_false, trans_true_toNat hb]; omega

example : (0x401000#64).toNat < 2 ^ 52 ∧ trans_addr 0x401000#64 false < trans_addr 0x10#64 true := by decide

/-- C02: without the bound the claim is false: a regular address with a bit above the flag sorts after all
thread-local ones. -/
theorem C02_bound_needed : ∃ a : Addr, a &&& 0xf0000000000000#64 = 0#64 ∧ ¬ trans_addr a false < trans_addr 0x10#64 true :=
  ⟨0x100000000000000#64, by decide⟩

end Bean.Props

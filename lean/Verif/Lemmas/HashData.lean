import Verif.Lemmas.HashRels
import Verif.Spec.HashData
/-
Lemmas about the identifiers of data.
-/
namespace Bean
open Tree Spec

/-! ### Masked bytes -/

theorem maskBytes_length (env : Env) (rels : List Rel) (a : Nat) (l : List (BitVec 8)) :
    (maskBytes env rels a l).length = l.length := by
  induction l generalizing a with
  | nil => rfl
  | cons b l ih => simp [maskBytes, ih]

theorem maskBytes_get (env : Env) (rels : List Rel) (a : Nat) (l : List (BitVec 8)) (i : Nat) :
    (maskBytes env rels a l)[i]? = l[i]?.map (fun b => if Masked env rels (a + i) then 0 else b) := by
  induction l generalizing a i with
  | nil => simp [maskBytes]
  | cons b l ih =>
    cases i with
    | zero => simp [maskBytes]
    | succ i =>
      simp only [maskBytes, List.getElem?_cons_succ, ih]
      rw [show a + 1 + i = a + (i + 1) by omega]

/-- Masking with relocations that agree on all addresses. -/
theorem maskBytes_congr {env : Env} {rels rels' : List Rel} {a a' : Nat} {l : List (BitVec 8)}
    (h : ∀ i < l.length, Masked env rels (a + i) ↔ Masked env rels' (a' + i)) :
    maskBytes env rels a l = maskBytes env rels' a' l := by
  apply List.ext_getElem?
  intro i
  rw [maskBytes_get, maskBytes_get]
  cases hi : l[i]? with
  | none => rfl
  | some b =>
    have := h i (List.getElem?_eq_some_iff.mp hi).1
    simp only [Option.map_some, this]

theorem maskBytes_plain {env : Env} {rels : List Rel} {a : Nat} {l : List (BitVec 8)}
    (h : ∀ i < l.length, ¬ Masked env rels (a + i)) : maskBytes env rels a l = l := by
  apply List.ext_getElem?
  intro i
  rw [maskBytes_get]
  cases hi : l[i]? with
  | none => rfl
  | some b =>
    have := h i (List.getElem?_eq_some_iff.mp hi).1
    simp [this]

theorem maskBytes_append (env : Env) (rels : List Rel) (a : Nat) (l l' : List (BitVec 8)) :
    maskBytes env rels a (l ++ l') = maskBytes env rels a l ++ maskBytes env rels (a + l.length) l' := by
  induction l generalizing a with
  | nil => rfl
  | cons b l ih =>
    simp only [List.cons_append, maskBytes, ih, List.length_cons]
    rw [show a + 1 + l.length = a + (l.length + 1) by omega]

theorem maskBytes_zeros {env : Env} {rels : List Rel} {a : Nat} {l : List (BitVec 8)}
    (h : ∀ i < l.length, Masked env rels (a + i)) : maskBytes env rels a l = zeros l.length := by
  apply List.ext_getElem?
  intro i
  rw [maskBytes_get]
  unfold zeros
  cases hi : l[i]? with
  | none =>
    have := List.getElem?_eq_none_iff.mp hi
    rw [List.getElem?_eq_none (by simpa using this)]
    rfl
  | some b =>
    have hl := (List.getElem?_eq_some_iff.mp hi).1
    rw [List.getElem?_eq_getElem (by simpa using hl)]
    simp [h i hl]

/-- Two byte strings with equal masked bytes. -/
theorem maskBytes_eq_iff {env : Env} {rels rels' : List Rel} {a a' : Nat} {l l' : List (BitVec 8)}
    (h : ∀ i, Masked env rels (a + i) ↔ Masked env rels' (a' + i)) :
    maskBytes env rels a l = maskBytes env rels' a' l' ↔
      l.length = l'.length ∧ ∀ i, ¬ Masked env rels (a + i) → l[i]? = l'[i]? := by
  constructor
  · intro e
    have hlen := congrArg List.length e
    rw [maskBytes_length, maskBytes_length] at hlen
    refine ⟨hlen, fun i hi => ?_⟩
    have := congrArg (fun x => x[i]?) e
    simp only [maskBytes_get, if_neg hi, if_neg (fun x => hi ((h i).mpr x))] at this
    simpa using this
  · rintro ⟨hlen, e⟩
    apply List.ext_getElem?
    intro i
    rw [maskBytes_get, maskBytes_get]
    by_cases hm : Masked env rels (a + i)
    · simp only [if_pos hm, if_pos ((h i).mp hm)]
      cases hi : l[i]? with
      | none =>
        have := List.getElem?_eq_none_iff.mp hi
        rw [List.getElem?_eq_none (by omega)]
      | some b =>
        have hl := (List.getElem?_eq_some_iff.mp hi).1
        rw [List.getElem?_eq_getElem (by omega)]
        rfl
    · simp only [if_neg hm, if_neg (fun x => hm ((h i).mpr x)), e i hm]

theorem maskBytes_eq_iff_drop (env : Env) (rels rels' : List Rel) (a a' : Nat) (l l' : List (BitVec 8)) (n : Nat)
    (h : ∀ i, Masked env rels (a + i) ↔ Masked env rels' (a' + i)) :
    maskBytes env rels (a + n) (l.drop n) = maskBytes env rels' (a' + n) (l'.drop n) ↔
      (l.drop n).length = (l'.drop n).length ∧ ∀ i, n ≤ i → ¬ Masked env rels (a + i) → l[i]? = l'[i]? := by
  rw [maskBytes_eq_iff (fun i => by rw [Nat.add_assoc, Nat.add_assoc]; exact h (n + i))]
  refine and_congr Iff.rfl ⟨fun hx i hi hm => ?_, fun hx i hm => ?_⟩
  · have := hx (i - n) (by rw [Nat.add_assoc, show n + (i - n) = i by omega]; exact hm)
    rw [List.getElem?_drop, List.getElem?_drop, show n + (i - n) = i by omega] at this
    exact this
  · rw [List.getElem?_drop, List.getElem?_drop]
    exact hx (n + i) (by omega) (by rw [← Nat.add_assoc]; exact hm)

/-! ### Content of data -/

theorem masked_nil (env : Env) (a : Nat) : ¬ Masked env [] a := by
  rintro ⟨r, hr, _⟩
  cases hr

theorem masked_cons (env : Env) (r : Rel) (rels : List Rel) (a : Nat) :
    Masked env (r :: rels) a ↔
      (r.offset.toNat ≤ a ∧ a < r.offset.toNat + (env.reloc_size r.type).toNat) ∨ Masked env rels a := by
  unfold Masked
  simp

theorem slice_eq (bytes : List (BitVec 8)) {a b : Addr} {n m : Nat} (ha : a.toNat = n) (hb : b.toNat = m) :
    slice bytes a b = (bytes.drop n).take m := by
  unfold slice
  rw [ha, hb]

theorem dataLoop {env : Env} {address size : Addr} {bytes : List (BitVec 8)}
    (hfit : address.toNat + size.toNat < 2 ^ 64) (hlen : bytes.length = size.toNat) (rels : List Rel)
    (out : List (BitVec 8)) (cur : Addr) (hcur : address.toNat ≤ cur.toNat)
    (hl : RelLayout env rels cur.toNat (address.toNat + size.toNat)) :
    ∃ r, rels.foldlM (dataStep env address (address + size) bytes) (out, cur) = .ok r ∧
      (if r.2 < address + size then r.1 ++ slice bytes (r.2 - address) (address + size - r.2) else r.1) =
        out ++ maskBytes env rels cur.toNat (bytes.drop (cur.toNat - address.toNat)) := by
  have hend : (address + size).toNat = address.toNat + size.toNat := by
    rw [BitVec.toNat_add]; omega
  have hsub : ∀ {c : Addr}, address.toNat ≤ c.toNat → (c - address).toNat = c.toNat - address.toNat := by
    intro c hc
    have := c.isLt
    rw [BitVec.toNat_sub]; omega
  induction rels generalizing out cur with
  | nil =>
    refine ⟨(out, cur), rfl, ?_⟩
    rw [maskBytes_plain (fun i _ => masked_nil env _)]
    show (if cur < address + size then out ++ slice bytes (cur - address) (address + size - cur) else out) = _
    by_cases hc : cur < address + size
    · have hc' : cur.toNat < address.toNat + size.toNat := by rw [BitVec.lt_def, hend] at hc; exact hc
      have h1 : (address + size - cur).toNat = address.toNat + size.toNat - cur.toNat := by
        rw [BitVec.toNat_sub, hend]; omega
      rw [if_pos hc, slice_eq bytes (hsub hcur) h1, List.take_of_length_le]
      rw [List.length_drop, hlen]; omega
    · have hc' : address.toNat + size.toNat ≤ cur.toNat := by
        rw [BitVec.lt_def, hend] at hc; omega
      rw [if_neg hc, List.drop_of_length_le (by omega), List.append_nil]
  | cons rel rels ih =>
    have hd := List.pairwise_cons.mp hl.disjoint
    rw [List.foldlM_cons]
    by_cases h0 : env.reloc_size rel.type = 0
    · have hstep : dataStep env address (address + size) bytes (out, cur) rel = .ok (out, cur) := by
        unfold dataStep
        simp only [h0, if_true]
      rw [hstep]
      obtain ⟨r, h1, h2⟩ := ih out cur hcur ⟨hd.2, fun q hq => hl.within q (List.mem_cons_of_mem _ hq)⟩
      refine ⟨r, h1, h2.trans ?_⟩
      congr 1
      apply maskBytes_congr
      intro i _
      rw [masked_cons, h0]
      constructor
      · exact Or.inr
      · rintro (⟨h3, h4⟩ | h3)
        · change _ < _ + (0#64).toNat at h4
          simp at h4
          omega
        · exact h3
    · obtain ⟨w1, w2⟩ := hl.within rel List.mem_cons_self h0
      have hlenpos : 0 < (env.reloc_size rel.type).toNat := by
        refine Nat.pos_of_ne_zero (fun h => h0 (BitVec.eq_of_toNat_eq ?_))
        rw [h]; rfl
      have hoff : (rel.offset + env.reloc_size rel.type).toNat =
          rel.offset.toNat + (env.reloc_size rel.type).toNat := by
        rw [BitVec.toNat_add]; omega
      have hassert : decide (rel.offset + env.reloc_size rel.type ≤ address + size) = true := by
        rw [decide_eq_true_eq, BitVec.le_def, hoff, hend]; exact w2
      have hout : (if cur < rel.offset then out ++ slice bytes (cur - address) (rel.offset - cur) else out) =
          out ++ (bytes.drop (cur.toNat - address.toNat)).take (rel.offset.toNat - cur.toNat) := by
        by_cases hc : cur < rel.offset
        · rw [if_pos hc, slice_eq bytes (hsub hcur) (m := rel.offset.toNat - cur.toNat)]
          have := rel.offset.isLt
          rw [BitVec.toNat_sub]; omega
        · rw [if_neg hc, show rel.offset.toNat - cur.toNat = 0 by rw [BitVec.lt_def] at hc; omega]
          simp
      have hstep : dataStep env address (address + size) bytes (out, cur) rel =
          .ok (out ++ (bytes.drop (cur.toNat - address.toNat)).take (rel.offset.toNat - cur.toNat) ++
            zeros (env.reloc_size rel.type).toNat, rel.offset + env.reloc_size rel.type) := by
        unfold dataStep
        simp only
        rw [if_neg h0, hout, hassert]
        cases env.build <;> rfl
      rw [hstep]
      obtain ⟨r, h1, h2⟩ := ih
        (out ++ (bytes.drop (cur.toNat - address.toNat)).take (rel.offset.toNat - cur.toNat) ++
            zeros (env.reloc_size rel.type).toNat) (rel.offset + env.reloc_size rel.type) (by omega)
        ⟨hd.2, fun q hq hz => ⟨by rw [hoff]; exact hd.1 q hq, (hl.within q (List.mem_cons_of_mem _ hq) hz).2⟩⟩
      refine ⟨r, h1, h2.trans ?_⟩
      rw [hoff, List.append_assoc, List.append_assoc]
      congr 1
      -- split the remaining bytes into three parts
      generalize hrest : bytes.drop (cur.toNat - address.toNat) = rest
      have hrl : rest.length = address.toNat + size.toNat - cur.toNat := by
        rw [← hrest, List.length_drop, hlen]
        omega
      have htail : bytes.drop (rel.offset.toNat + (env.reloc_size rel.type).toNat - address.toNat) =
          (rest.drop (rel.offset.toNat - cur.toNat)).drop (env.reloc_size rel.type).toNat := by
        rw [← hrest, List.drop_drop, List.drop_drop]
        congr 1
        omega
      rw [htail]
      conv => rhs; rw [← List.take_append_drop (rel.offset.toNat - cur.toNat) rest,
        ← List.take_append_drop (env.reloc_size rel.type).toNat (rest.drop (rel.offset.toNat - cur.toNat))]
      rw [maskBytes_append, maskBytes_append]
      have hl1 : (rest.take (rel.offset.toNat - cur.toNat)).length = rel.offset.toNat - cur.toNat := by
        rw [List.length_take, hrl]; omega
      have hl2 : ((rest.drop (rel.offset.toNat - cur.toNat)).take (env.reloc_size rel.type).toNat).length =
          (env.reloc_size rel.type).toNat := by
        rw [List.length_take, List.length_drop, hrl]; omega
      congr 1
      · rw [maskBytes_plain]
        intro i hi hm
        rw [hl1] at hi
        obtain ⟨q, hq, hq1, hq2⟩ := hm
        rcases List.mem_cons.mp hq with rfl | hq
        · omega
        · have := hd.1 q hq; omega
      · congr 1
        · rw [maskBytes_zeros, hl2]
          intro i hi
          rw [hl2] at hi
          exact ⟨rel, List.mem_cons_self, by rw [hl1]; omega, by rw [hl1]; omega⟩
        · rw [hl1, hl2, show cur.toNat + (rel.offset.toNat - cur.toNat) + (env.reloc_size rel.type).toNat =
            rel.offset.toNat + (env.reloc_size rel.type).toNat by omega]
          apply maskBytes_congr
          intro i _
          rw [masked_cons]
          constructor
          · exact Or.inr
          · rintro (⟨h3, h4⟩ | h3)
            · omega
            · exact h3

/-- The content of data with a proper layout of relocations. -/
theorem dataContent_eq {env : Env} {got address size : Addr} {rels : List Rel} {bytes : List (BitVec 8)}
    (hfit : address.toNat + size.toNat + 16 < 2 ^ 64) (hlen : bytes.length = size.toNat)
    (hl : RelLayout env rels (address.toNat + gotSkip got address) (address.toNat + size.toNat)) :
    dataContent env got address size rels bytes =
      .ok (maskBytes env rels (address.toNat + gotSkip got address) (bytes.drop (gotSkip got address))) := by
  have hstart : (if address = got then address + 16 else address).toNat = address.toNat + gotSkip got address := by
    unfold gotSkip
    by_cases h : address = got
    · rw [if_pos h, if_pos h, BitVec.toNat_add]
      change (address.toNat + 16) % _ = _
      omega
    · rw [if_neg h, if_neg h]; rfl
  obtain ⟨r, h1, h2⟩ := dataLoop (env := env) (address := address) (size := size) (by omega) hlen rels []
    (if address = got then address + 16 else address) (by rw [hstart]; omega) (by rw [hstart]; exact hl)
  unfold dataContent
  simp only
  rw [h1]
  refine congrArg Except.ok (h2.trans ?_)
  rw [hstart, List.nil_append, show address.toNat + gotSkip got address - address.toNat = gotSkip got address by omega]

/-! ### Data symbols -/

/-- Everything about data in the result. -/
structure DataFacts (env : Env) (fl : AnalyzeFlags) (st : AState) (s s0 : Symbol) (sec : ElfSec) (seg : ElfSeg) :
    Prop where
  mem : s0 ∈ st.symbols
  address : s0.address = s.address
  floor : Tree.floor st.sections s.address = some sec
  segment : dataSegment st sec (TLS.virt_addr s.address) = .ok seg
  inside : env.build = .debug →
    TLS.virt_addr s.address + s.size ≤ env.align_up (seg.virt_addr + seg.virt_size) seg.alignment
  kind : (isBss sec seg (TLS.virt_addr s.address) = true ∧ s.rels = s0.rels ∧ s.refs = s0.refs ∧
      s.id.internal = env.xxhash (pageOffset s (TLS.virt_addr s.address) ++ zeros s.size.toNat ++
        attributeBytes env fl s)) ∨
    (isBss sec seg (TLS.virt_addr s.address) = false ∧
      ∃ s1 s2 bytes c, s1.address = s.address ∧ s1.size = s.size ∧ s1.rels = s0.rels ∧ s1.refs = s0.refs ∧
        addRelocations env fl st sec (TLS.virt_addr s.address) s1 = .ok s2 ∧ s2.rels = s.rels ∧ s2.refs = s.refs ∧
        readBytes sec.data (TLS.virt_addr s.address - sec.virt_addr) s.size = .ok bytes ∧
        dataContent env st.global_offset_table (TLS.virt_addr s.address) s.size s.rels bytes = .ok c ∧
        s.id.internal = env.xxhash (pageOffset s (TLS.virt_addr s.address) ++ c ++ attributeBytes env fl s))

theorem data_facts {env : Env} {fl : AnalyzeFlags} {st r : AState} (hok : SymsOK st.symbols)
    (h : hashInternal env fl st = .ok r) {s : Symbol} (hs : s ∈ r.symbols) (hx : s.sec.executable = false) :
    ∃ s0 sec seg, DataFacts env fl st s s0 sec seg := by
  obtain ⟨_, hmem, _⟩ := hashInternal_ok hok h
  obtain ⟨i, s0, x, h1, h2, h3, h4⟩ := (hmem s).mp hs
  have hm0 := List.mem_of_getElem? h1
  rw [finish_used h3] at h4
  obtain ⟨hsame, hsort, sec, sz, h5, h6, h7, h8, h9⟩ := hashSymbol_same (hok.rels s0 hm0) h2
  have hxx : x.sym.sec.executable = false := by rw [h4] at hx; exact hx
  have had := adoptSection_same sec s0
  have haddr : s.address = s0.address := by rw [h4]; exact hsame.address
  have hszaddr : sz.address = s.address := by
    rw [haddr, h6]
    exact had.1.address
  have hsz : sz.size = s.size := by rw [h6, h4]
  have hszrels : sz.rels = s0.rels := by rw [h6]; exact had.2.2.2.1
  have hszrefs : sz.refs = s0.refs := by rw [h6]; exact had.2.2.2.2.1
  have hid : s.id.internal = env.xxhash (x.input ++ attributeBytes env fl x.sym) := by rw [h4]
  have hat : attributeBytes env fl s = attributeBytes env fl x.sym := by rw [h4]; rfl
  have hpg : ∀ a, pageOffset s a = pageOffset x.sym a := by intro a; rw [h4]; rfl
  have hrels : s.rels = x.sym.rels := by rw [h4]
  have hrefs : s.refs = x.sym.refs := by rw [h4]
  have hsize : s.size = x.sym.size := by rw [h4]
  rcases h9 with ⟨h10, _⟩ | ⟨_, h9⟩
  · rw [h7, h10] at hxx
    cases hxx
  · obtain ⟨seg, e1, _, e2⟩ := hashData_ok h9
    have hin := hashData_inside h9 e1
    rw [hszaddr] at e1 e2
    rw [hszaddr, hsz] at hin
    refine ⟨s0, sec, seg, hm0, haddr.symm, by rw [haddr]; exact h5, e1, hin, ?_⟩
    rcases e2 with ⟨e3, e4, e5⟩ | ⟨e3, bytes, c, e4, e5, e6, e7⟩
    · refine Or.inl ⟨e3, ?_, ?_, ?_⟩
      · rw [hrels, e4]; exact hszrels
      · rw [hrefs, e4]; exact hszrefs
      · rw [hid, hat, e5, hpg, e4, hsz]
    · refine Or.inr ⟨e3, sz, x.sym, bytes, c, hszaddr, hsz, hszrels, hszrefs, e4, hrels.symm, hrefs.symm, ?_, ?_, ?_⟩
      · rw [hsize]; exact e5
      · rw [hsize, hrels]; exact e6
      · rw [hid, hat, e7, hpg]

end Bean

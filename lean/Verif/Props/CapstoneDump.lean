import Verif.Model.CapstoneDump
import Verif.Props.CodeText
/-
C144: a dump of machine code has all of its bytes.
-/
namespace Bean.Props

open Bean Spec

/-- A line of the dump as it is read. -/
structure DumpedInsn where
  address : Nat
  bytes : List (BitVec 8)
  text : Str
deriving DecidableEq, Repr

/-- Bytes of a line: two digits and a blank each. -/
def readDumpBytes : Nat → Str → List (BitVec 8)
  | 0, _ => []
  | n + 1, s => if s.take 1 = [' '] then [] else BitVec.ofNat 8 (numeral 16 (s.take 2)) :: readDumpBytes n (s.drop 3)

/-- A line `0xaddress: 00 00 … mnemonic operands`, with 45 characters for the bytes. -/
def readInsnLine (l : Str) : DumpedInsn :=
  let d := l.drop 2
  let r := (d.dropWhile (· ≠ ':')).drop 2
  ⟨numeral 16 (d.takeWhile (· ≠ ':')), readDumpBytes 15 r, r.drop 45⟩

/-- All lines of the dump. -/
def readDumped (s : Str) : List DumpedInsn := (readLines s).map readInsnLine

/-- Instructions of capstone are not empty, have at most 15 bytes, are within the bytes given and have the address asked for. -/
def Decodes (env : Env) : Prop := ∀ a b i, env.decode a b = some i → 0 < i.size ∧ i.size ≤ 15 ∧ i.size ≤ b.length ∧ i.address = a

theorem cells_blank (n k : Nat) (b : List (BitVec 8)) (h : b.length ≤ k) : (List.range' k n).flatMap (CapDump.cell b) = List.replicate (3 * n) ' ' := by
  induction n generalizing k with
  | zero => rfl
  | succ n ih =>
    rw [List.range'_succ, List.flatMap_cons, ih (k + 1) (by omega)]
    unfold CapDump.cell
    rw [List.getElem?_eq_none h]
    show _ = List.replicate (3 * n + 3) ' '
    rw [List.replicate_succ, List.replicate_succ, List.replicate_succ]
    rfl

theorem range_cells (n k : Nat) (b : List (BitVec 8)) (r : Str) (h : b.length ≤ k + n) (hk : k ≤ b.length) :
    readDumpBytes n ((List.range' k n).flatMap (CapDump.cell b) ++ r) = b.drop k ∧ ((List.range' k n).flatMap (CapDump.cell b)).length = 3 * n := by
  induction n generalizing k with
  | zero =>
    refine ⟨?_, rfl⟩
    rw [List.drop_eq_nil_of_le (by omega)]
    rfl
  | succ n ih =>
    by_cases hl : k < b.length
    · obtain ⟨i1, i2⟩ := ih (k + 1) (by omega) hl
      have e : CapDump.cell b k = hexByte b[k] ++ [' '] := by
        unfold CapDump.cell
        rw [List.getElem?_eq_getElem hl]
      have hx := hexByte_length b[k]
      have hw := hexByte_word b[k]
      have hn : numeral 16 (hexByte b[k]) = b[k].toNat := by
        unfold hexByte padZeros
        rw [numeral_zeros, numeral_digits (by decide) (by decide)]
      rw [List.range'_succ, List.flatMap_cons, e]
      match hh : hexByte b[k], hx with
      | [x, y], _ =>
        rw [hh] at hw hn
        constructor
        · show (if [x] = [' '] then [] else BitVec.ofNat 8 (numeral 16 [x, y]) :: readDumpBytes n ((List.range' (k + 1) n).flatMap (CapDump.cell b) ++ r)) = _
          rw [if_neg (fun e => (hw x List.mem_cons_self).1 (List.singleton_inj.mp e)), hn, i1, BitVec.ofNat_toNat, BitVec.setWidth_eq]
          exact (List.drop_eq_getElem_cons hl).symm
        · rw [List.length_append, i2]
          show 3 + 3 * n = 3 * (n + 1)
          omega
    · rw [cells_blank _ _ _ (by omega), List.drop_eq_nil_of_le (by omega)]
      refine ⟨?_, List.length_replicate⟩
      show readDumpBytes (n + 1) (List.replicate (3 * n + 3) ' ' ++ r) = []
      rw [List.replicate_succ]
      rfl

theorem insn_line (words : Addr → List (BitVec 8) → Wording) (i : Insn) (b : List (BitVec 8)) (h : b.length ≤ 15) :
    readInsnLine (CapDump.line words i b) = ⟨i.address.toNat, b, (words i.address b).mnemonic ++ ' ' :: (words i.address b).op_str⟩ := by
  obtain ⟨h1, h2⟩ := range_cells 15 0 b ((words i.address b).mnemonic ++ ' ' :: (words i.address b).op_str) (by omega) (Nat.zero_le _)
  rw [← List.range_eq_range'] at h1 h2
  have hc : ∀ c ∈ padZeros 6 (Nat.toDigits 16 i.address.toNat), (c ≠ ':' : Bool) = true := by
    intro c hc
    unfold padZeros at hc
    rcases List.mem_append.mp hc with hc | hc
    · rw [List.eq_of_mem_replicate hc]
      decide
    · obtain ⟨k, hk, rfl⟩ := mem_digits (by decide) hc
      have : ∀ k < 16, (Nat.digitChar k ≠ ':' : Bool) = true := by decide
      exact this k hk
  have hn : numeral 16 (padZeros 6 (Nat.toDigits 16 i.address.toNat)) = i.address.toNat := by
    unfold padZeros
    rw [numeral_zeros, numeral_digits (by decide) (by decide)]
  unfold readInsnLine CapDump.line
  simp only [List.drop_succ_cons, List.drop_zero]
  rw [List.takeWhile_append_of_pos hc, List.dropWhile_append_of_pos hc, List.takeWhile_cons_of_neg (by decide), List.dropWhile_cons_of_neg (by decide), List.append_nil, hn]
  simp only [List.drop_succ_cons, List.drop_zero]
  rw [h1, List.drop_zero, List.drop_left' h2]

theorem capLine_break (words : Addr → List (BitVec 8) → Wording) (hw : ∀ a b, '\n' ∉ (words a b).mnemonic ∧ '\n' ∉ (words a b).op_str) (i : Insn) (b : List (BitVec 8)) :
    '\n' ∉ CapDump.line words i b := by
  have hp : '\n' ∉ padZeros 6 (Nat.toDigits 16 i.address.toNat) := by
    unfold padZeros
    rw [List.mem_append]
    exact not_or.mpr ⟨fun h => absurd (List.eq_of_mem_replicate h) (by decide), digits_break (by decide) (by decide)⟩
  have hc : '\n' ∉ (List.range 15).flatMap (CapDump.cell b) := by
    intro h
    obtain ⟨k, _, hk⟩ := List.mem_flatMap.mp h
    unfold CapDump.cell at hk
    split at hk
    · rcases List.mem_append.mp hk with hk | hk
      · exact (hexByte_word _ _ hk).2 rfl
      · exact absurd hk (by decide)
    · exact absurd hk (by decide)
  have := (hw i.address b).1
  have := (hw i.address b).2
  unfold CapDump.line
  simp only [List.mem_cons, List.mem_append, not_or]
  refine ⟨by decide, by decide, hp, by decide, by decide, hc, ?_, by decide, ?_⟩ <;> assumption

theorem loop_lines (env : Env) (hd : Decodes env) (words : Addr → List (BitVec 8) → Wording) (hw : ∀ a b, '\n' ∉ (words a b).mnemonic ∧ '\n' ∉ (words a b).op_str) (n : Nat) (a : Addr)
    (bytes : List (BitVec 8)) (hn : bytes.length ≤ n) :
    ∃ rest, (readDumped (CapDump.loop words (disasmN env n a bytes) bytes)).flatMap (·.bytes) ++ rest = bytes ∧
      env.decode (a + BitVec.ofNat 64 (bytes.length - rest.length)) rest = none ∧
      ∀ x ∈ readDumped (CapDump.loop words (disasmN env n a bytes) bytes), ∃ p q, bytes = p ++ q ∧ x.address = (a + BitVec.ofNat 64 p.length).toNat ∧ x.bytes <+: q ∧
        (∃ i, env.decode (a + BitVec.ofNat 64 p.length) q = some i ∧ i.size = x.bytes.length) ∧
        x.text = (words (a + BitVec.ofNat 64 p.length) x.bytes).mnemonic ++ ' ' :: (words (a + BitVec.ofNat 64 p.length) x.bytes).op_str := by
  have hz : ∀ x : Addr, x + BitVec.ofNat 64 0 = x := fun x => by simp
  induction n generalizing a bytes with
  | zero =>
    obtain rfl := List.length_eq_zero_iff.mp (Nat.le_zero.mp hn)
    refine ⟨[], rfl, ?_, fun x hx => absurd hx List.not_mem_nil⟩
    match h : env.decode (a + BitVec.ofNat 64 (([] : List (BitVec 8)).length - ([] : List (BitVec 8)).length)) [] with
    | none => rfl
    | some i =>
      have := hd _ _ _ h
      simp only [List.length_nil] at this
      omega
  | succ n ih =>
    unfold disasmN
    match h : env.decode a bytes with
    | none =>
      refine ⟨bytes, rfl, ?_, fun x hx => absurd hx List.not_mem_nil⟩
      rw [Nat.sub_self, hz, h]
    | some i =>
      obtain ⟨h1, h2, h3, h4⟩ := hd _ _ _ h
      dsimp only
      rw [if_pos ⟨h1, h3⟩]
      have hl : (bytes.take i.size).length = i.size := by rw [List.length_take]; omega
      obtain ⟨rest, e1, e2, e3⟩ := ih (a + BitVec.ofNat 64 i.size) (bytes.drop i.size) (by rw [List.length_drop]; omega)
      have er : readDumped (CapDump.loop words
          ({ insn := i, address := a + BitVec.ofNat 64 i.size, rest := bytes.drop i.size } :: disasmN env n (a + BitVec.ofNat 64 i.size) (bytes.drop i.size)) bytes) =
          ⟨a.toNat, bytes.take i.size, (words a (bytes.take i.size)).mnemonic ++ ' ' :: (words a (bytes.take i.size)).op_str⟩ ::
            readDumped (CapDump.loop words (disasmN env n (a + BitVec.ofNat 64 i.size) (bytes.drop i.size)) (bytes.drop i.size)) := by
        unfold readDumped
        rw [CapDump.loop, readLines_cut (capLine_break words hw _ _), List.map_cons, insn_line _ _ _ (by rw [hl]; exact h2), h4]
      have hr : rest.length ≤ bytes.length - i.size := by
        rw [← List.length_drop, ← e1, List.length_append]
        omega
      rw [er]
      refine ⟨rest, ?_, ?_, ?_⟩
      · rw [List.flatMap_cons, List.append_assoc, e1, List.take_append_drop]
      · rw [← e2, List.length_drop, BitVec.add_assoc, ← BitVec.ofNat_add, show i.size + (bytes.length - i.size - rest.length) = bytes.length - rest.length by omega]
      · intro x hx
        rcases List.mem_cons.mp hx with rfl | hx
        · refine ⟨[], bytes, rfl, ?_, List.take_prefix _ _, ⟨i, ?_, hl.symm⟩, ?_⟩
          · rw [List.length_nil, hz]
          · rw [List.length_nil, hz, h]
          · rw [List.length_nil, hz]
        · obtain ⟨p, q, f1, f2, f3, f4, f5⟩ := e3 x hx
          have ha : a + BitVec.ofNat 64 i.size + BitVec.ofNat 64 p.length = a + BitVec.ofNat 64 (bytes.take i.size ++ p).length := by
            rw [List.length_append, hl, BitVec.add_assoc, ← BitVec.ofNat_add]
          rw [ha] at f2 f4 f5
          exact ⟨bytes.take i.size ++ p, q, by rw [List.append_assoc, ← f1, List.take_append_drop], f2, f3, f4, f5⟩

/-- **C144**: the bytes of the lines are those of the code from its start up to the first place that cannot be decoded. -/
theorem C144_bytes_partial (env : Env) (hd : Decodes env) (words : Addr → List (BitVec 8) → Wording) (hw : ∀ a b, '\n' ∉ (words a b).mnemonic ∧ '\n' ∉ (words a b).op_str) (start : Addr)
    (bytes : List (BitVec 8)) :
    ∃ rest, (readDumped (CapDump.dump env words true start bytes).2).flatMap (·.bytes) ++ rest = bytes ∧ env.decode (start + BitVec.ofNat 64 (bytes.length - rest.length)) rest = none := by
  obtain ⟨rest, h1, h2, _⟩ := loop_lines env hd words hw bytes.length start bytes (Nat.le_refl _)
  exact ⟨rest, h1, h2⟩

/-- **C144**: each line is about an instruction, with its address, its bytes and its text. -/
theorem C144_lines (env : Env) (hd : Decodes env) (words : Addr → List (BitVec 8) → Wording) (hw : ∀ a b, '\n' ∉ (words a b).mnemonic ∧ '\n' ∉ (words a b).op_str) (ready : Bool) (start : Addr)
    (bytes : List (BitVec 8)) :
    ∀ x ∈ readDumped (CapDump.dump env words ready start bytes).2, ∃ p q, bytes = p ++ q ∧ x.address = (start + BitVec.ofNat 64 p.length).toNat ∧ x.bytes <+: q ∧
      (∃ i, env.decode (start + BitVec.ofNat 64 p.length) q = some i ∧ i.size = x.bytes.length) ∧
      x.text = (words (start + BitVec.ofNat 64 p.length) x.bytes).mnemonic ++ ' ' :: (words (start + BitVec.ofNat 64 p.length) x.bytes).op_str := by
  cases ready with
  | false => exact fun x hx => absurd hx List.not_mem_nil
  | true =>
    obtain ⟨_, _, _, h⟩ := loop_lines env hd words hw bytes.length start bytes (Nat.le_refl _)
    exact h

/-- C144 is false if there are bytes that cannot be decoded: the dump ends there, and still reports success. -/
theorem C144_success_counterexample (env : Env) (words : Addr → List (BitVec 8) → Wording) (start : Addr) (bytes : List (BitVec 8)) (h : env.decode start bytes = none) :
    CapDump.dump env words true start bytes = (true, []) := by
  unfold CapDump.dump disasm
  rw [if_pos rfl]
  cases hb : bytes.length with
  | zero => rfl
  | succ n =>
    rw [disasmN, h]
    rfl

/-- An environment with two instructions: `90`, and `c3` with one more byte. -/
def exDumpEnv : Env := { exEnv with decode := fun a b => match b with
  | 0x90 :: _ => some { address := a, size := 1, id := 0 }
  | 0xc3 :: _ :: _ => some { address := a, size := 2, id := 1 }
  | _ => none }

example : Decodes exDumpEnv := by
  intro a b i h
  unfold exDumpEnv at h
  dsimp only at h
  split at h
  · cases h
    exact ⟨by simp, by simp, by simp, rfl⟩
  · cases h
    exact ⟨by simp, by simp, by simp, rfl⟩
  · cases h

example : (readDumped (CapDump.dump exDumpEnv (fun _ _ => ⟨"x".toList, []⟩) true 0x1000 [0x90, 0xc3, 0x01, 0x07]).2).map (fun x => (x.address, x.bytes)) = [(0x1000, [0x90]), (0x1001, [0xc3, 0x01])] := by
  decide +kernel

end Bean.Props

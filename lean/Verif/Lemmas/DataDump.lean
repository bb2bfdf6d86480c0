import Verif.Model.DataDump
import Verif.Spec.DataDump
/-
Lines of the dump of data (for C113).
-/
namespace Bean
open Spec

variable {env : Env} {resolve : Bool} {symbols : SymTree} {s : Symbol} {bytes : List (BitVec 8)}

/-- Text of a position. -/
def cellText : Option (BitVec 8) → Str
  | some v => ' ' :: hexByte v
  | none => [' ', ' ', ' ']

/-- Contribution of a position to `is_ascii`. -/
def cellScore : Option (BitVec 8) → Int
  | some v => if printable v then 1 else -1
  | none => 0

/-- Relocations after a position. -/
def trackAt (env : Env) (s : Symbol) (x : Nat) (tr : DumpTrack) : DumpTrack :=
  if (TLS.virt_addr s.address).toNat ≤ x ∧ x < (TLS.virt_addr s.address).toNat + s.size.toNat then dumpTrack env (BitVec.ofNat 64 x) tr else tr

/-- Relocations after some positions. -/
def trackTo (env : Env) (s : Symbol) : Nat → Nat → DumpTrack → DumpTrack
  | 0, _, tr => tr
  | n + 1, x, tr => trackTo env s n (x + 1) (trackAt env s x tr)

/-- State after some positions of a line. -/
def advanced (env : Env) (s : Symbol) (bytes : List (BitVec 8)) (n x : Nat) (st : DumpState) : DumpState where
  out := st.out ++ (List.range' x n).flatMap (fun y => cellText (contentAt s bytes y))
  track := trackTo env s n x st.track
  is_ascii := st.is_ascii + ((List.range' x n).map (fun y => cellScore (contentAt s bytes y))).sum
  ascii := st.ascii ++ (List.range' x n).flatMap (fun y => charOf (contentAt s bytes y))

/-- State after the end of a line. -/
def ended (resolve : Bool) (symbols : SymTree) (s : Symbol) (x : Nat) (st : DumpState) : DumpState where
  out := st.out ++ (dumpRemark resolve symbols s.rels (BitVec.ofNat 64 x) st ++ ['\n'])
  track := { st.track with had_rel := false }
  is_ascii := 0
  ascii := []

theorem dumpByte_eq (v : BitVec 8) (st : DumpState) : dumpByte v st =
    { st with out := st.out ++ cellText (some v), is_ascii := st.is_ascii + cellScore (some v), ascii := st.ascii ++ charOf (some v) } := by
  have h : printable v = decide (32 ≤ v.toNat ∧ v.toNat < 127) := by
    unfold printable
    rw [decide_eq_decide, show ' '.toNat = 32 from rfl, show '~'.toNat = 126 from rfl]
    omega
  have h2 : (v.toNat = '\\'.toNat) = (v = 92) := by
    rw [show '\\'.toNat = 92 from rfl]
    exact propext ⟨fun h => BitVec.eq_of_toNat_eq h, fun h => h ▸ rfl⟩
  unfold dumpByte cellScore charOf cellText
  simp only [h, h2]
  by_cases hp : 32 ≤ v.toNat ∧ v.toNat < 127
  · simp only [if_pos hp, decide_eq_true hp, if_true]
  · simp only [if_neg hp, decide_eq_false hp, Bool.false_eq_true, if_false]
    rfl

theorem cell_ok (hc : Content s bytes) {x : Nat} (hx : x < 2 ^ 64) (st : DumpState) :
    dumpCell env (TLS.virt_addr s.address) s.size bytes (BitVec.ofNat 64 x) st = .ok (advanced env s bytes 1 x st) := by
  obtain ⟨h1, h2⟩ := hc
  unfold dumpCell
  have e1 : (BitVec.ofNat 64 x).toNat = x := Nat.mod_eq_of_lt hx
  have e2 : (TLS.virt_addr s.address + s.size).toNat = (TLS.virt_addr s.address).toNat + s.size.toNat := by
    rw [BitVec.toNat_add]
    exact Nat.mod_eq_of_lt (by omega)
  have ha : advanced env s bytes 1 x st =
      { out := st.out ++ cellText (contentAt s bytes x), track := trackAt env s x st.track,
        is_ascii := st.is_ascii + cellScore (contentAt s bytes x), ascii := st.ascii ++ charOf (contentAt s bytes x) } := by
    unfold advanced
    simp [trackTo, List.range'_succ]
  rw [ha]
  by_cases hr : (TLS.virt_addr s.address).toNat ≤ x ∧ x < (TLS.virt_addr s.address).toNat + s.size.toNat
  · rw [if_neg (by rw [BitVec.lt_def, ge_iff_le, BitVec.le_def, e1, e2]; omega)]
    have e3 : (BitVec.ofNat 64 x - TLS.virt_addr s.address).toNat = x - (TLS.virt_addr s.address).toNat := by
      rw [BitVec.toNat_sub_of_le (by rw [BitVec.le_def, e1]; exact hr.1), e1]
    have e4 : contentAt s bytes x = some (bytes[x - (TLS.virt_addr s.address).toNat]'(by omega)) := by
      unfold contentAt
      rw [if_pos hr, List.getElem?_eq_getElem]
    rw [e3, List.getElem?_eq_getElem (by omega), e4]
    dsimp only
    rw [dumpByte_eq]
    unfold trackAt
    rw [if_pos hr]
  · rw [if_pos (by rw [BitVec.lt_def, ge_iff_le, BitVec.le_def, e1, e2]; omega)]
    have e4 : contentAt s bytes x = none := by
      unfold contentAt
      rw [if_neg hr]
    rw [e4]
    unfold trackAt
    rw [if_neg hr]
    simp [cellText, cellScore, charOf]

theorem advanced_succ (n x : Nat) (st : DumpState) : advanced env s bytes n (x + 1) (advanced env s bytes 1 x st) = advanced env s bytes (n + 1) x st := by
  unfold advanced
  simp [trackTo, List.range'_succ, Int.add_assoc]

theorem mod_of {x : Nat} (hx : x < 2 ^ 64) : (BitVec.ofNat 64 x % 16 = 0) = (x % 16 = 0) := by
  refine propext ?_
  rw [← BitVec.toNat_inj, BitVec.toNat_umod, BitVec.toNat_ofNat, Nat.mod_eq_of_lt hx]
  rfl

theorem mod_next {x : Nat} (hx : x < 2 ^ 64) : ((BitVec.ofNat 64 x + 1) % 16 = 0) = ((x + 1) % 16 = 0) := by
  refine propext ?_
  rw [← BitVec.toNat_inj, BitVec.toNat_umod, BitVec.toNat_add, BitVec.toNat_ofNat, Nat.mod_eq_of_lt hx]
  show (x + 1) % 2 ^ 64 % 16 = 0 ↔ _
  omega

theorem ofNat_next (x : Nat) : BitVec.ofNat 64 x + 1 = BitVec.ofNat 64 (x + 1) := by
  rw [show (1 : BitVec 64) = BitVec.ofNat 64 1 from rfl, ← BitVec.ofNat_add]

theorem dumpLoop_add (m n : Nat) (x : Nat) (st : DumpState) : dumpLoop env resolve symbols s bytes (m + n) (BitVec.ofNat 64 x) st =
    (dumpLoop env resolve symbols s bytes m (BitVec.ofNat 64 x) st).bind (dumpLoop env resolve symbols s bytes n (BitVec.ofNat 64 (x + m))) := by
  induction m generalizing x st with
  | zero => rw [Nat.zero_add, Nat.add_zero]; rfl
  | succ m ih =>
    rw [show m + 1 + n = (m + n) + 1 by omega, dumpLoop, dumpLoop]
    cases dumpStep env resolve symbols s bytes (BitVec.ofNat 64 x) st with
    | error e => rfl
    | ok st' =>
      show dumpLoop env resolve symbols s bytes (m + n) (BitVec.ofNat 64 x + 1) st' =
        (dumpLoop env resolve symbols s bytes m (BitVec.ofNat 64 x + 1) st').bind _
      rw [ofNat_next, ih, show x + 1 + m = x + (m + 1) by omega]

/-- The positions of a line behind the first one. -/
theorem loop_cells (hc : Content s bytes) (n x : Nat) (hx : x % 16 ≠ 0) (hn : x % 16 + n = 15) (hl : x + n < 2 ^ 64) (st : DumpState) :
    dumpLoop env resolve symbols s bytes (n + 1) (BitVec.ofNat 64 x) st = .ok (ended resolve symbols s (x + n) (advanced env s bytes (n + 1) x st)) := by
  induction n generalizing x st with
  | zero =>
    rw [dumpLoop, dumpStep]
    simp only [mod_of (x := x) (by omega), if_neg hx, cell_ok hc (x := x) (by omega), mod_next (x := x) (by omega)]
    show Except.ok (if (x + 1) % 16 = 0 then _ else _) = _
    rw [if_pos (by omega)]
    rfl
  | succ n ih =>
    rw [dumpLoop, dumpStep]
    simp only [mod_of (x := x) (by omega), if_neg hx, cell_ok hc (x := x) (by omega), mod_next (x := x) (by omega)]
    show dumpLoop env resolve symbols s bytes (n + 1) (BitVec.ofNat 64 x + 1) (if (x + 1) % 16 = 0 then _ else _) = _
    rw [if_neg (by omega), ofNat_next, ih (x + 1) (by omega) (by omega) (by omega), advanced_succ, show x + 1 + n = x + (n + 1) by omega]

/-- A line. -/
theorem loop_line (hc : Content s bytes) (x : Nat) (hx : x % 16 = 0) (hl : x + 16 ≤ 2 ^ 64) (st : DumpState) :
    dumpLoop env resolve symbols s bytes 16 (BitVec.ofNat 64 x) st =
      .ok (ended resolve symbols s (x + 15) (advanced env s bytes 16 x { st with out := st.out ++ dumpHeader (BitVec.ofNat 64 x) })) := by
  rw [dumpLoop, dumpStep]
  simp only [mod_of (x := x) (by omega), if_pos hx, cell_ok hc (x := x) (by omega), mod_next (x := x) (by omega)]
  show dumpLoop env resolve symbols s bytes 15 (BitVec.ofNat 64 x + 1) (if (x + 1) % 16 = 0 then _ else _) = _
  rw [if_neg (by omega), ofNat_next, loop_cells hc 14 (x + 1) (by omega) (by omega) (by omega), advanced_succ, show x + 1 + 14 = x + 15 by omega]

/-- Relocations at the start of a line. -/
def startTrack (env : Env) (s : Symbol) (x : Nat) : Nat → DumpTrack → DumpTrack
  | 0, tr => tr
  | i + 1, tr => startTrack env s (x + 16) i { trackTo env s 16 x tr with had_rel := false }

/-- Text of a line without line break. -/
def lineText (env : Env) (resolve : Bool) (symbols : SymTree) (s : Symbol) (bytes : List (BitVec 8)) (x : Nat) (tr : DumpTrack) : Str :=
  dumpHeader (BitVec.ofNat 64 x) ++ ((List.range' x 16).flatMap (fun y => cellText (contentAt s bytes y)) ++
    dumpRemark resolve symbols s.rels (BitVec.ofNat 64 (x + 15)) (advanced env s bytes 16 x { track := tr }))

/-- Texts of the lines. -/
def lineTexts (env : Env) (resolve : Bool) (symbols : SymTree) (s : Symbol) (bytes : List (BitVec 8)) : Nat → Nat → DumpTrack → List Str
  | 0, _, _ => []
  | n + 1, x, tr => lineText env resolve symbols s bytes x tr :: lineTexts env resolve symbols s bytes n (x + 16) { trackTo env s 16 x tr with had_rel := false }

theorem lineTexts_length (n x : Nat) (tr : DumpTrack) : (lineTexts env resolve symbols s bytes n x tr).length = n := by
  induction n generalizing x tr with
  | zero => rfl
  | succ n ih => rw [lineTexts, List.length_cons, ih]

theorem lineTexts_get (n x : Nat) (tr : DumpTrack) (i : Nat) (hi : i < n) :
    (lineTexts env resolve symbols s bytes n x tr)[i]? = some (lineText env resolve symbols s bytes (x + 16 * i) (startTrack env s x i tr)) := by
  induction n generalizing x tr i with
  | zero => omega
  | succ n ih =>
    rw [lineTexts]
    cases i with
    | zero => rfl
    | succ i => rw [List.getElem?_cons_succ, ih _ _ _ (by omega), startTrack, show x + 16 + 16 * i = x + 16 * (i + 1) by omega]

theorem dumpRemark_out (rels : List Rel) (a : Addr) (st : DumpState) (o : Str) :
    dumpRemark resolve symbols rels a { st with out := o } = dumpRemark resolve symbols rels a st := rfl

theorem loop_lines (hc : Content s bytes) (n x : Nat) (hx : x % 16 = 0) (hl : x + 16 * n ≤ 2 ^ 64) (o : Str) (tr : DumpTrack) :
    ∃ st, dumpLoop env resolve symbols s bytes (16 * n) (BitVec.ofNat 64 x) { out := o, track := tr } = .ok st ∧
      st.out = o ++ (lineTexts env resolve symbols s bytes n x tr).flatMap (· ++ ['\n']) := by
  induction n generalizing x o tr with
  | zero => exact ⟨_, rfl, (List.append_nil _).symm⟩
  | succ n ih =>
    rw [show 16 * (n + 1) = 16 + 16 * n by omega, dumpLoop_add, loop_line hc x hx (by omega)]
    obtain ⟨st, h1, h2⟩ := ih (x + 16) (by omega) (by omega) (o ++ (lineText env resolve symbols s bytes x tr ++ ['\n'])) { trackTo env s 16 x tr with had_rel := false }
    refine ⟨st, ?_, ?_⟩
    · rw [← h1]
      show dumpLoop env resolve symbols s bytes (16 * n) (BitVec.ofNat 64 (x + 16)) (ended resolve symbols s (x + 15) _) = _
      congr 1
      unfold ended lineText advanced
      simp [dumpRemark]
    · rw [h2, lineTexts, List.flatMap_cons, List.append_assoc]

/-- The whole dump. -/
theorem dump_lines (hc : Content s bytes) (hr : RoundsUp env s) : dumpData env resolve symbols s bytes =
    .ok ((lineTexts env resolve symbols s bytes (lineCount s) (lineStart s 0) { rels := s.rels }).flatMap (· ++ ['\n'])) := by
  have hc' := hc
  obtain ⟨h1, h2⟩ := hc'
  have e0 : (TLS.virt_addr s.address % 16).toNat = (TLS.virt_addr s.address).toNat % 16 := BitVec.toNat_umod
  have e1 : (TLS.virt_addr s.address - TLS.virt_addr s.address % 16).toNat = lineStart s 0 := by
    rw [BitVec.toNat_sub_of_le (by rw [BitVec.le_def, e0]; omega), e0]
    unfold lineStart
    omega
  have hls : lineStart s 0 = (TLS.virt_addr s.address).toNat / 16 * 16 := by
    unfold lineStart
    omega
  have hlc : lineCount s = ((TLS.virt_addr s.address).toNat + s.size.toNat + 15) / 16 - (TLS.virt_addr s.address).toNat / 16 := rfl
  have e2 : TLS.virt_addr s.address - TLS.virt_addr s.address % 16 = BitVec.ofNat 64 (lineStart s 0) := by
    rw [← e1, BitVec.ofNat_toNat, BitVec.setWidth_eq]
  have e3 : (if TLS.virt_addr s.address - TLS.virt_addr s.address % 16 < env.align_up (TLS.virt_addr s.address + s.size) 16 then
      (env.align_up (TLS.virt_addr s.address + s.size) 16 - (TLS.virt_addr s.address - TLS.virt_addr s.address % 16)).toNat else 0) = 16 * lineCount s := by
    unfold RoundsUp at hr
    by_cases h : lineStart s 0 < ((TLS.virt_addr s.address).toNat + s.size.toNat + 15) / 16 * 16
    · rw [if_pos (by rw [BitVec.lt_def, e1, hr]; exact h), BitVec.toNat_sub_of_le (by rw [BitVec.le_def, e1, hr]; omega), e1, hr]
      omega
    · rw [if_neg (by rw [BitVec.lt_def, e1, hr]; exact h)]
      omega
  unfold dumpData
  dsimp only
  rw [e3, e2]
  obtain ⟨st, h3, h4⟩ := loop_lines (env := env) (resolve := resolve) (symbols := symbols) hc (lineCount s) (lineStart s 0) (by omega) (by omega) [] { rels := s.rels }
  rw [h3]
  show Except.ok st.out = _
  rw [h4, List.nil_append]

end Bean

import Verif.Props.Daemon
/-
C58 with the cache, C59 and C82.
-/
namespace Bean.Props
open Bean Bean.Spec

/-! C58 for the cache of summaries -/

/-- The entries of the cache are what would be computed. -/
def RightCache (file : Str → VarRequest SummaryHashes) (c : VarCache SummaryHashes) : Prop :=
  ∀ key v, c.lookup key = some v → ∃ path, reqKey (file path) = some key ∧ (file path).summary = some v

theorem getData_right {file : Str → VarRequest SummaryHashes} (hv : ∀ path id, (file path).buildid = some id → ValidId id)
    (same : ∀ p p', SameKey (file p) (file p') → (file p).summary = (file p').summary) {c : VarCache SummaryHashes}
    (hc : RightCache file c) (path : Str) :
    (getData c (file path)).1 = fresh (file path) ∧ RightCache file (getData c (file path)).2 := by
  unfold getData
  cases hb : (file path).buildid with
  | none => exact ⟨by unfold fresh; rw [hb]; rfl, hc⟩
  | some id =>
    have hk : reqKey (file path) = some (cacheKey id (file path).args) := by unfold reqKey; rw [hb]; rfl
    dsimp only
    cases hl : c.lookup (cacheKey id (file path).args) with
    | some v =>
      refine ⟨?_, hc⟩
      obtain ⟨p, h1, h2⟩ := hc _ _ hl
      have sk := reqKey_same (hv path) (hv p) (h1.trans hk.symm) (by rw [hk]; rfl)
      unfold fresh
      rw [hb]
      exact (h2.symm.trans (same p path sk)).trans rfl
    | none =>
      dsimp only
      cases hs : (file path).summary with
      | none => exact ⟨by unfold fresh; rw [hb]; exact hs.symm, hc⟩
      | some v =>
        refine ⟨by unfold fresh; rw [hb]; exact hs.symm, ?_⟩
        intro key w h
        dsimp only at h
        rw [List.lookup_cons] at h
        cases hkk : key == cacheKey id (file path).args with
        | true =>
          rw [hkk] at h
          exact ⟨path, by rw [hk, eq_of_beq hkk], by rw [hs]; exact h⟩
        | false =>
          rw [hkk] at h
          exact hc key w h

/-- C58, partial: with an initially empty cache and files that do not change, for which the results of files with the same build
identifier are equal (see C57), each client that only asks for paths gets the lines that belong to its paths, whatever other
clients do and however input and output are split. Answers to requests for build identifiers depend on the requests before
(`C58_by_id`). -/
theorem C58_cache_partial (args : VarArgs) (file : Str → VarRequest SummaryHashes)
    (hv : ∀ path id, (file path).buildid = some id → ValidId id)
    (same : ∀ p p', SameKey (file p) (file p') → (file p).summary = (file p').summary) (es : List DaemonEvent)
    (s : Daemon (VarCache SummaryHashes)) (h : daemonRun (plainHandle args file) (daemonStart []) es = .ok s)
    (paths : ∀ c ls r, Framed (normBytes (received c es)) ls r → ∀ l ∈ ls, idRequest (asciiText l) = none) (c : Nat) (d : Conn)
    (hd : s.conns c = some d) : ∃ lines, Framed (normBytes (received c es)) lines d.inb ∧
      d.sent ++ d.outb = lines.flatMap (fun l => textBytes (simplify (fresh (file (asciiText l))))) := by
  refine daemon_pure (Right := RightCache file) (P := fun l => idRequest (asciiText l) = none) ?_ (fun key v h => (by cases h)) h
    (fun c ls r hf l hl _ => paths c ls r hf l hl) c d hd
  intro k r hk hr
  unfold plainHandle plainAnswer
  rw [hr]
  obtain ⟨g1, g2⟩ := getData_right hv same hk (asciiText r)
  exact ⟨by dsimp only; rw [g1], g2⟩

/-- A handler for examples: the answer is the request followed by an end of line. -/
def echo (_ : Unit) (r : Bytes) : Unit × Bytes := ((), r ++ [10])

/-- Outcome for a client: what was sent, what is still to be sent, and the incomplete input. -/
def outcome {κ : Type} (c : Nat) : Except DaemonEnd (Daemon κ) → Option (Bytes × Bytes × Bytes)
  | .ok s => (s.conns c).map (fun d => (d.sent, d.outb, d.inb))
  | .error _ => none

/-- Two clients; the first sends `ab\n` and `c` in pieces, the output is taken in pieces. -/
example : outcome 1 (daemonRun echo (daemonStart ()) [.listening (.connection 1), .listening (.connection 2),
    .ready 1 (some (.bytes [97])) none, .ready 2 (some (.bytes [120, 13])) (some (.count 1)),
    .ready 1 (some (.bytes [98, 0, 99])) (some (.count 2)), .ready 2 (some (.bytes [])) none, .ready 1 none (some .connectionError)]) =
    some ([97, 98], [10], [99]) := by
  decide +kernel

/-- Forty digits. -/
def exIdLine : Bytes := List.replicate 40 97 ++ [10]

/-- A single file with this build identifier. -/
def exFile (_ : Str) : VarRequest SummaryHashes where
  args := {}
  buildid := some (some (List.replicate 40 'a'))
  summary := some [("RW".toList, some "12".toList)]

/-- C58: the answer to a request for a build identifier depends on the requests of others. -/
theorem C58_by_id :
    outcome 1 (daemonRun (plainHandle {} exFile) (daemonStart []) [.listening (.connection 1), .listening (.connection 2),
      .ready 1 (some (.bytes exIdLine)) none]) = some ([], textBytes "-\n".toList, []) ∧
    outcome 1 (daemonRun (plainHandle {} exFile) (daemonStart []) [.listening (.connection 1), .listening (.connection 2),
      .ready 2 (some (.bytes [120, 10])) none, .ready 1 (some (.bytes exIdLine)) none]) =
      some ([], textBytes "RW:12\n".toList, []) := by
  decide +kernel

/-! C59 -/

section
variable {κ : Type}

theorem daemonRead_error {handle : κ → Bytes → κ × Bytes} {k : κ} {d : Conn} {r : Option Recv} {f : DaemonEnd} :
    daemonRead handle k d r = .error f ↔ f = .decodeError ∧ ∃ b ls rest, r = some (.bytes b) ∧ b ≠ [] ∧
      Framed (d.inb ++ normBytes b) ls rest ∧ ∃ l ∈ ls, isAscii l = false := by
  unfold daemonRead
  split
  · constructor
    · intro h; cases h
    · rintro ⟨_, b, ls, rest, h, _⟩; cases h
  · constructor
    · intro h; cases h
    · rintro ⟨_, b, ls, rest, h, _⟩; cases h
  · constructor
    · intro h; cases h
    · rintro ⟨_, b, ls, rest, h, hb, _⟩
      cases h
      exact absurd rfl hb
  · rename_i x xs
    obtain ⟨ls, rest, hf⟩ := framed_exists (d.inb ++ normBytes (x :: xs))
    obtain ⟨s1, s2⟩ := serve_framed (handle := handle) 0 k hf
    have hall : (∃ l ∈ ls, isAscii l = false) ↔ ls.all isAscii = false := by
      rw [List.all_eq_false]
      simp
    cases ha : ls.all isAscii with
    | true =>
      rw [s1 ha]
      constructor
      · intro h; cases h
      · rintro ⟨_, b, ls', rest', h, _, hf', hl⟩
        cases h
        rw [(framed_unique hf' hf).1, hall, ha] at hl
        cases hl
    | false =>
      rw [s2 ha]
      constructor
      · intro h
        cases h
        exact ⟨rfl, _, ls, rest, rfl, by simp, hf, hall.mpr ha⟩
      · rintro ⟨rfl, _⟩
        rfl

theorem daemonWrite_error {d : Conn} {w : Option Send} {f : DaemonEnd} :
    daemonWrite d w = .error f ↔ f = .closedSocket ∧ w ≠ none ∧ d.outb ≠ [] ∧ d.isOpen = false := by
  unfold daemonWrite
  cases w with
  | none =>
    constructor
    · intro h; cases h
    · rintro ⟨_, h, _⟩; exact absurd rfl h
  | some w =>
    dsimp only
    split
    · rename_i h
      constructor
      · intro h; cases h
      · rintro ⟨_, _, h', _⟩; exact absurd h h'
    · rename_i h
      split
      · rename_i h'
        constructor
        · intro e
          cases e
          exact ⟨rfl, (by simp), h, h'⟩
        · rintro ⟨rfl, _⟩; rfl
      · rename_i h'
        constructor
        · intro e; cases w <;> cases e
        · rintro ⟨_, _, _, e⟩; exact absurd e h'

/-- An open connection. -/
def Connected (s : Daemon κ) (c : Nat) (d : Conn) : Prop := s.conns c = some d ∧ d.isOpen = true

/-- C59: the events that end the daemon in a given state: an interrupt of the user; an error of `accept` that does not concern a
connection; a line with a byte above 127; and the end of the stream of a client, if the socket is ready for writing and output is
pending. -/
theorem C59_reasons (handle : κ → Bytes → κ × Bytes) (s : Daemon κ) (e : DaemonEvent) :
    (∃ f, daemonStep handle s e = .error f ∧ f ≠ .impossible) ↔
      e = .interrupt ∨ e = .listening .osError ∨
      (∃ c d b w ls rest, Connected s c d ∧ e = .ready c (some (.bytes b)) w ∧ b ≠ [] ∧ Framed (d.inb ++ normBytes b) ls rest ∧
        ∃ l ∈ ls, ∃ x ∈ l, 128 ≤ x) ∨
      (∃ c d w, Connected s c d ∧ e = .ready c (some (.bytes [])) (some w) ∧ d.outb ≠ []) := by
  have ascii : ∀ l : Bytes, isAscii l = false ↔ ∃ x ∈ l, 128 ≤ x := by
    intro l
    unfold isAscii
    rw [List.all_eq_false]
    simp [UInt8.not_lt]
  constructor
  · rintro ⟨f, h, hf⟩
    cases e with
    | interrupt => exact Or.inl rfl
    | listening r =>
      cases r with
      | osError => exact Or.inr (Or.inl rfl)
      | connectionError => cases h
      | connection c =>
        unfold daemonStep at h
        dsimp only at h
        split at h
        · cases h
        · cases h; exact absurd rfl hf
    | ready c r w =>
      unfold daemonStep at h
      dsimp only at h
      split at h
      · cases h; exact absurd rfl hf
      · rename_i d hd
        split at h
        · cases h; exact absurd rfl hf
        · rename_i ho
          have hcon : Connected s c d := ⟨hd, Bool.not_eq_false _ ▸ ho⟩
          split at h
          · rename_i f' hr
            obtain ⟨_, b, ls, rest, hr', hb, hfr, l, hl, ha⟩ := daemonRead_error.mp hr
            exact Or.inr (Or.inr (Or.inl ⟨c, d, b, w, ls, rest, hcon, by rw [hr'], hb, hfr, l, hl, (ascii l).mp ha⟩))
          · cases h
          · rename_i k' d' hr
            split at h
            · rename_i f' hw
              obtain ⟨_, hw1, hw2, hw3⟩ := daemonWrite_error.mp hw
              refine Or.inr (Or.inr (Or.inr ?_))
              obtain ⟨w', rfl⟩ := Option.ne_none_iff_exists'.mp hw1
              unfold daemonRead at hr
              split at hr
              · cases hr; exact absurd hw3 ho
              · cases hr
              · cases hr
                exact ⟨c, d, w', hcon, rfl, hw2⟩
              · split at hr
                · cases hr
                · cases hr; exact absurd hw3 ho
            · cases h
  · rintro (rfl | rfl | ⟨c, d, b, w, ls, rest, ⟨hd, ho⟩, rfl, hb, hfr, l, hl, hx⟩ | ⟨c, d, w, ⟨hd, ho⟩, rfl, hout⟩)
    · exact ⟨.interrupt, rfl, by decide⟩
    · exact ⟨.acceptError, rfl, by decide⟩
    · refine ⟨.decodeError, ?_, by decide⟩
      unfold daemonStep
      dsimp only
      rw [hd]
      dsimp only
      rw [if_neg (by rw [ho]; decide)]
      rw [daemonRead_error.mpr ⟨rfl, b, ls, rest, rfl, hb, hfr, l, hl, (ascii l).mpr hx⟩]
    · refine ⟨.closedSocket, ?_, by decide⟩
      unfold daemonStep
      dsimp only
      rw [hd]
      dsimp only
      rw [if_neg (by rw [ho]; decide)]
      unfold daemonRead
      dsimp only
      rw [daemonWrite_error (d := { d with isOpen := false }).mpr ⟨rfl, (by simp), hout, rfl⟩]

/-- C59, negation: each client can end the daemon at any time, with two bytes. -/
theorem C59_non_ascii (handle : κ → Bytes → κ × Bytes) (s : Daemon κ) (c : Nat) (d : Conn) (h : Connected s c d) (x : UInt8)
    (hx : 128 ≤ x) (w : Option Send) : ∃ f, daemonStep handle s (.ready c (some (.bytes [x, 10])) w) = .error f ∧ f ≠ .impossible := by
  refine (C59_reasons handle s _).mpr (Or.inr (Or.inr (Or.inl ?_)))
  have hn : normBytes [x, 10] = [x, 10] := by
    unfold normBytes
    rw [List.map_cons, if_neg]
    · rfl
    · rintro (rfl | rfl) <;> revert hx <;> decide
  obtain ⟨ls, rest, hf⟩ := framed_exists d.inb
  have hrest : 10 ∉ rest ++ [x] := by
    intro hm
    rcases List.mem_append.mp hm with hm | hm
    · exact hf.2.2 hm
    · simp at hm
      subst hm
      revert hx
      decide
  refine ⟨c, d, [x, 10], w, ls ++ [rest ++ [x]], [], h, rfl, (by simp), ?_, rest ++ [x], (by simp), x, (by simp), hx⟩
  rw [hn]
  refine framed_append hf ?_
  have := framed_cons hrest (framed_nil (b := []) List.not_mem_nil)
  rw [List.append_assoc] at this
  exact this

/-- C59, negation: a client that closes its side while output is pending ends the daemon. Here the socket is not ready for writing
when the request arrives. -/
theorem C59_half_close (handle : κ → Bytes → κ × Bytes) (k : κ) (r : Bytes) (hr : r ≠ []) (hl : 10 ∉ normBytes r)
    (ha : isAscii (normBytes r) = true) (hne : (handle k (normBytes r)).2 ≠ []) (w : Send) :
    daemonRun handle (daemonStart k) [.listening (.connection 1), .ready 1 (some (.bytes (r ++ [10]))) none,
      .ready 1 (some (.bytes [])) (some w)] = .error .closedSocket := by
  obtain ⟨x, xs, e⟩ : ∃ x xs, r ++ [10] = x :: xs := by
    cases r with
    | nil => exact absurd rfl hr
    | cons x xs => exact ⟨x, xs ++ [10], rfl⟩
  have hf : Framed ([] ++ normBytes (r ++ [10])) [normBytes r] [] := by
    rw [List.nil_append, normBytes_append]
    exact framed_cons hl (framed_nil List.not_mem_nil)
  have hs := (serve_framed (handle := handle) 1 k hf).1 (by simp [ha])
  have hread : daemonRead handle k {} (some (.bytes (r ++ [10]))) =
      .ok (some ((handle k (normBytes r)).1, { outb := (handle k (normBytes r)).2 })) := by
    rw [e] at hs ⊢
    unfold daemonRead
    dsimp only
    rw [hs]
    simp [sequential]
  have s1 : daemonStep handle (daemonStart k) (.listening (.connection 1)) = .ok ((daemonStart k).set 1 {}) := rfl
  have s2 : daemonStep handle ((daemonStart k).set 1 {}) (.ready 1 (some (.bytes (r ++ [10]))) none) =
      .ok ({ (daemonStart k).set 1 {} with cache := (handle k (normBytes r)).1 }.set 1 { outb := (handle k (normBytes r)).2 }) := by
    unfold daemonStep
    dsimp only [Daemon.set, daemonStart]
    rw [if_pos rfl]
    dsimp only
    rw [if_neg (by decide), hread]
    rfl
  rw [daemonRun, s1]
  dsimp only
  rw [daemonRun, s2]
  dsimp only
  rw [daemonRun]
  unfold daemonStep
  dsimp only [Daemon.set, daemonStart]
  rw [if_pos rfl]
  dsimp only
  rw [if_neg (by decide)]
  unfold daemonRead
  dsimp only
  rw [daemonWrite_error.mpr ⟨rfl, (by simp), hne, rfl⟩]

example : daemonRun echo (daemonStart ()) [.listening (.connection 1), .ready 1 (some (.bytes ([97] ++ [10]))) none,
    .ready 1 (some (.bytes [])) (some (.count 1))] = .error .closedSocket :=
  C59_half_close echo () [97] (by decide) (by decide) (by decide) (by decide) _

/-- The input buffers contain bytes below 128 only. -/
def AsciiInput (s : Daemon κ) : Prop := ∀ c d, s.conns c = some d → ∀ x ∈ d.inb, x < 128

theorem normBytes_ascii {b : Bytes} (h : ∀ x ∈ b, x < 128) : ∀ x ∈ normBytes b, x < 128 := by
  intro x hx
  obtain ⟨y, hy, rfl⟩ := List.mem_map.mp hx
  split
  · decide
  · exact h y hy

theorem daemonStep_ascii {handle : κ → Bytes → κ × Bytes} {s s' : Daemon κ} {e : DaemonEvent} (h : AsciiInput s)
    (he : ∀ c, ∀ x ∈ eventBytes c e, x < 128) (hs : daemonStep handle s e = .ok s') : AsciiInput s' := by
  have hset : ∀ (t : Daemon κ) c d, t.conns = s.conns → (∀ x ∈ d.inb, x < 128) → AsciiInput (t.set c d) := by
    intro t c d ht hd i di hi
    unfold Daemon.set at hi
    dsimp only at hi
    split at hi
    · cases hi; exact hd
    · rw [ht] at hi
      exact h i di hi
  cases e with
  | interrupt => cases hs
  | listening r =>
    cases r with
    | osError => cases hs
    | connectionError => cases hs; exact h
    | connection c =>
      unfold daemonStep at hs
      dsimp only at hs
      split at hs
      · cases hs
        exact hset s c {} rfl (fun x hx => by cases hx)
      · cases hs
  | ready c r w =>
    unfold daemonStep at hs
    dsimp only at hs
    split at hs
    · cases hs
    · rename_i d hd
      split at hs
      · cases hs
      · split at hs
        · cases hs
        · cases hs; exact h
        · rename_i k' d' hr
          split at hs
          · cases hs
          · rename_i d'' hw
            cases hs
            refine hset _ c d'' rfl ?_
            rw [(daemonWrite_conn hw).1]
            unfold daemonRead at hr
            split at hr
            · cases hr; exact h c _ hd
            · cases hr
            · cases hr; exact h c d hd
            · rename_i y ys
              split at hr
              · cases hr
              · rename_i k'' out rest hsv
                cases hr
                dsimp only
                obtain ⟨ls, r', hf⟩ := framed_exists (d.inb ++ normBytes (y :: ys))
                obtain ⟨s1, s2⟩ := serve_framed (handle := handle) 0 s.cache hf
                have : rest = r' := by
                  cases ha : ls.all isAscii with
                  | true => rw [s1 ha] at hsv; cases hsv; rfl
                  | false => rw [s2 ha] at hsv; cases hsv
                intro x hx
                have hm : x ∈ d.inb ++ normBytes (y :: ys) := by
                  rw [hf.1, ← this]
                  exact List.mem_append_right _ hx
                rcases List.mem_append.mp hm with hm | hm
                · exact h c d hd x hm
                · refine normBytes_ascii ?_ x hm
                  intro z hz
                  exact he c z (by rw [show eventBytes c (.ready c (some (.bytes (y :: ys))) w) = y :: ys from if_pos rfl]; exact hz)

/-- C59, partial: as long as clients only send bytes below 128, sockets are not ready for writing when a stream ends, connections
can be accepted and the user does not interrupt it, the daemon goes on. -/
theorem C59_partial (handle : κ → Bytes → κ × Bytes) (k : κ) (es : List DaemonEvent) (h1 : ∀ c, ∀ x ∈ received c es, x < 128)
    (h2 : ∀ c w, .ready c (some (.bytes [])) (some w) ∉ es) (h3 : .interrupt ∉ es) (h4 : .listening .osError ∉ es) :
    (∃ s, daemonRun handle (daemonStart k) es = .ok s) ∨ daemonRun handle (daemonStart k) es = .error .impossible := by
  have gen : ∀ s : Daemon κ, AsciiInput s → (∃ s', daemonRun handle s es = .ok s') ∨ daemonRun handle s es = .error .impossible := by
    induction es with
    | nil => exact fun s _ => Or.inl ⟨s, rfl⟩
    | cons e es ih =>
      intro s hs
      have he : ∀ c, ∀ x ∈ eventBytes c e, x < 128 := by
        intro c x hx
        refine h1 c x ?_
        unfold received
        rw [List.flatMap_cons]
        exact List.mem_append_left _ hx
      rw [daemonRun]
      cases hst : daemonStep handle s e with
      | ok s1 =>
        refine ih ?_ ?_ ?_ ?_ s1 (daemonStep_ascii hs he hst)
        · intro c x hx
          refine h1 c x ?_
          unfold received
          rw [List.flatMap_cons]
          exact List.mem_append_right _ hx
        · exact fun c w hm => h2 c w (List.mem_cons_of_mem _ hm)
        · exact fun hm => h3 (List.mem_cons_of_mem _ hm)
        · exact fun hm => h4 (List.mem_cons_of_mem _ hm)
      | error f =>
        by_cases hf : f = .impossible
        · rw [hf]
          exact Or.inr rfl
        · exfalso
          rcases (C59_reasons handle s e).mp ⟨f, hst, hf⟩ with rfl | rfl | ⟨c, d, b, w, ls, rest, hcon, rfl, hb, hfr, l, hl, x, hx, hge⟩ |
            ⟨c, d, w, hcon, rfl, _⟩
          · exact h3 List.mem_cons_self
          · exact h4 List.mem_cons_self
          · have hm : x ∈ d.inb ++ normBytes b := by
              rw [hfr.1]
              refine List.mem_append_left _ (List.mem_flatMap.mpr ⟨l, hl, List.mem_append_left _ hx⟩)
            have : x < 128 := by
              rcases List.mem_append.mp hm with hm | hm
              · exact hs c d hcon.1 x hm
              · refine normBytes_ascii ?_ x hm
                intro z hz
                exact he c z (by rw [show eventBytes c (.ready c (some (.bytes b)) w) = b from if_pos rfl]; exact hz)
            exact absurd hge (UInt8.not_le.mpr this)
          · exact h2 c w List.mem_cons_self
  exact gen (daemonStart k) (fun c d h => by cases h)

end

/-! C82 -/

theorem joinComma_mem {l : List Str} {c : Char} (h : c ∈ joinComma l) : c = ',' ∨ ∃ x ∈ l, c ∈ x := by
  fun_induction joinComma l with
  | case1 => cases h
  | case2 x => exact Or.inr ⟨x, List.mem_cons_self, h⟩
  | case3 x y rest ih =>
    rcases List.mem_append.mp h with h | h
    · exact Or.inr ⟨x, List.mem_cons_self, h⟩
    · rcases List.mem_cons.mp h with h | h
      · exact Or.inl h
      · rcases ih h with h | ⟨z, hz, h⟩
        · exact Or.inl h
        · exact Or.inr ⟨z, List.mem_cons_of_mem _ hz, h⟩

/-- C82: a plain answer is a single line. -/
theorem C82_one_line (r : Option SummaryHashes)
    (hr : ∀ d, r = some d → ∀ m ∈ d, '\n' ∉ m.1 ∧ ∀ h, m.2 = some h → '\n' ∉ h) : ∃ t, simplify r = t ++ ['\n'] ∧ '\n' ∉ t := by
  unfold simplify
  split
  · exact ⟨['-'], rfl, by decide⟩
  · exact ⟨['-'], rfl, by decide⟩
  · rename_i d ds
    refine ⟨_, rfl, ?_⟩
    intro hm
    rcases joinComma_mem hm with h | ⟨x, hx, h⟩
    · exact absurd h (by decide)
    · obtain ⟨m, hm', e⟩ := List.mem_filterMap.mp hx
      obtain ⟨g1, g2⟩ := hr _ rfl m hm'
      cases hh : m.2 with
      | none => rw [hh] at e; cases e
      | some y =>
        rw [hh] at e
        cases e
        rcases List.mem_append.mp h with h | h
        · exact g1 h
        · rcases List.mem_cons.mp h with h | h
          · exact absurd h (by decide)
          · exact g2 y hh h

example : simplify (some [("file".toList, none), ("RW".toList, some "12".toList), ("TLS".toList, some "3".toList)]) =
    "RW:12,TLS:3\n".toList := by
  decide +kernel

/-- C82: a client that ends its lines with a line feed gets as many lines as it sent, if each answer is a line. -/
theorem C82_count {κ : Type} (handle : κ → Bytes → κ × Bytes) (line : ∀ k r, ∃ t, (handle k r).2 = t ++ [10] ∧ 10 ∉ t) (k : κ)
    (es : List DaemonEvent) (s : Daemon κ) (h : daemonRun handle (daemonStart k) es = .ok s) (c : Nat) (d : Conn)
    (hd : s.conns c = some d) (ls : List Bytes) (rest : Bytes) (hf : Framed (received c es) ls rest)
    (plain : ∀ x ∈ received c es, x ≠ 0 ∧ x ≠ 13) : ∃ answers, Framed (d.sent ++ d.outb) answers [] ∧ answers.length = ls.length := by
  obtain ⟨log, _, hc⟩ := C58_sequential handle k es s h
  obtain ⟨h1, h2⟩ := hc c d hd
  have hn : normBytes (received c es) = received c es := by
    unfold normBytes
    conv => rhs; rw [← List.map_id (received c es)]
    refine List.map_congr_left (fun x hx => ?_)
    obtain ⟨p1, p2⟩ := plain x hx
    rw [if_neg (by rintro (e | e) <;> contradiction)]
    rfl
  rw [hn] at h1
  have e := (framed_unique h1 hf).1
  have len : (ofClient c (sequential handle k log).2).length = ls.length := by
    rw [← e]
    unfold ofClient
    rw [List.length_map, List.length_map, ← List.length_map (·.1), ← List.length_map (as := log.filter _) (·.1)]
    rw [show (fun p : Nat × Bytes => p.1 == c) = (fun x => x == c) ∘ (·.1) from rfl, ← List.filter_map, ← List.filter_map,
      sequential_clients]
  have frame : ∀ (k : κ) (log : List (Nat × Bytes)), ∃ answers, Framed (ofClient c (sequential handle k log).2).flatten answers [] ∧
      answers.length = (ofClient c (sequential handle k log).2).length := by
    intro k log
    induction log generalizing k with
    | nil => exact ⟨[], framed_nil List.not_mem_nil, rfl⟩
    | cons p log ih =>
      obtain ⟨i, r⟩ := p
      obtain ⟨as, i1, i2⟩ := ih (handle k r).1
      rw [sequential]
      by_cases hi : i = c
      · obtain ⟨t, ht, hnl⟩ := line k r
        have : ofClient c ((i, (handle k r).2) :: (sequential handle (handle k r).1 log).2) =
            (handle k r).2 :: ofClient c (sequential handle (handle k r).1 log).2 := by
          unfold ofClient
          rw [List.filter_cons, if_pos (by rw [hi]; exact beq_self_eq_true c), List.map_cons]
        refine ⟨t :: as, ?_, ?_⟩
        · rw [this, List.flatten_cons, ht, List.append_assoc]
          exact framed_cons hnl i1
        · rw [this, List.length_cons, List.length_cons, i2]
      · have : ofClient c ((i, (handle k r).2) :: (sequential handle (handle k r).1 log).2) =
            ofClient c (sequential handle (handle k r).1 log).2 := by
          unfold ofClient
          rw [List.filter_cons, if_neg (by simpa using hi)]
        exact ⟨as, by rw [this]; exact i1, by rw [this]; exact i2⟩
  obtain ⟨as, f1, f2⟩ := frame k log
  exact ⟨as, by rw [h2]; exact f1, by rw [f2, len]⟩

/-- A handler whose answers are lines. -/
def noResult (_ : Unit) (_ : Bytes) : Unit × Bytes := ((), [45, 10])

example : (∀ k r, ∃ t, (noResult k r).2 = t ++ [10] ∧ 10 ∉ t) ∧ outcome 1 (daemonRun noResult (daemonStart ())
    [.listening (.connection 1), .ready 1 (some (.bytes [97, 10, 98])) none, .ready 1 (some (.bytes [10])) (some (.count 2))]) =
    some ([45, 10], [45, 10], []) :=
  ⟨fun _ _ => ⟨[45], rfl, by decide⟩, by decide +kernel⟩

/-- C82, negation: lines that end with carriage return and line feed count as two requests, the second one empty. -/
theorem C82_crlf (ls : List Bytes) (h : ∀ l ∈ ls, 0 ∉ l ∧ 10 ∉ l ∧ 13 ∉ l) :
    Framed (normBytes (ls.flatMap (· ++ [13, 10]))) (ls.flatMap (fun l => [l, []])) [] := by
  induction ls with
  | nil => exact framed_nil List.not_mem_nil
  | cons l ls ih =>
    obtain ⟨h0, h1, h2⟩ := h l List.mem_cons_self
    have hn : normBytes l = l := by
      unfold normBytes
      conv => rhs; rw [← List.map_id l]
      refine List.map_congr_left (fun x hx => ?_)
      rw [if_neg (by rintro (rfl | rfl) <;> contradiction)]
      rfl
    rw [List.flatMap_cons, List.flatMap_cons, normBytes_append, normBytes_append, hn]
    have := framed_cons (l := l) h1 (framed_cons (l := []) List.not_mem_nil (ih (fun x hx => h x (List.mem_cons_of_mem _ hx))))
    rw [List.append_assoc]
    exact this

example : outcome 1 (daemonRun echo (daemonStart ()) [.listening (.connection 1),
    .ready 1 (some (.bytes [97, 13, 10, 98, 13, 10])) none]) = some ([], [97, 10, 10, 98, 10, 10], []) := by
  decide +kernel

theorem hex_char (c : Char) : (c.isDigit || ('a' ≤ c && c ≤ 'f')) = true ↔ c ∈ "0123456789abcdef".toList := by
  constructor
  · intro h
    have hn : (48 ≤ c.toNat ∧ c.toNat ≤ 57) ∨ (97 ≤ c.toNat ∧ c.toNat ≤ 102) := by
      unfold Char.isDigit at h
      simp only [Bool.or_eq_true, Bool.and_eq_true, decide_eq_true_eq] at h
      rcases h with ⟨h1, h2⟩ | ⟨h1, h2⟩
      · exact .inl ⟨h1, h2⟩
      · exact .inr ⟨h1, h2⟩
    have e : c = Char.ofNat c.toNat := (Char.ofNat_toNat c).symm
    have : ∀ n < 103, (48 ≤ n ∧ n ≤ 57) ∨ (97 ≤ n ∧ n ≤ 102) → Char.ofNat n ∈ "0123456789abcdef".toList := by decide +kernel
    rw [e]
    exact this _ (by omega) hn
  · revert c
    decide

/-- C58: a request is for a build identifier exactly if it consists of forty hexadecimal digits with spaces around them; other requests
are for paths. -/
theorem C58_id_lines (line id : Str) : idRequest line = some id ↔ IsIdLine line id := by
  unfold idRequest
  constructor
  · intro h
    dsimp only at h
    split at h
    · rename_i hc
      obtain ⟨h1, h2, h3⟩ := hc
      cases h
      refine ⟨line.takeWhile (· == ' '), (line.dropWhile (· == ' ')).drop 40, ?_, ?_, ?_, h1, ?_⟩
      · rw [List.append_assoc, List.take_append_drop, List.takeWhile_append_dropWhile]
      · intro c hc
        simpa using List.all_eq_true.mp (List.all_takeWhile (l := line) (p := (· == ' '))) c hc
      · intro c hc
        simpa using List.all_eq_true.mp h3 c hc
      · intro c hc
        exact (hex_char c).mp (List.all_eq_true.mp h2 c hc)
    · cases h
  · rintro ⟨before, after, rfl, h1, h2, h3, h4⟩
    have hd : (before ++ id ++ after).dropWhile (· == ' ') = id ++ after := by
      rw [List.append_assoc]
      clear h2
      induction before with
      | nil =>
        cases id with
        | nil => cases h3
        | cons x xs =>
          have : (x == ' ') = false := by
            have hs : ∀ y ∈ "0123456789abcdef".toList, (y == ' ') = false := by decide
            exact hs x (h4 x List.mem_cons_self)
          rw [List.nil_append, List.cons_append, List.dropWhile_cons, this]
          rfl
      | cons b bs ih =>
        rw [List.cons_append, List.dropWhile_cons, h1 b List.mem_cons_self]
        exact ih (fun c hc => h1 c (List.mem_cons_of_mem _ hc))
    dsimp only
    rw [hd, List.take_append_of_le_length (by omega), List.take_of_length_le (by omega), List.drop_append_of_le_length (by omega),
      List.drop_of_length_le (by omega), List.nil_append]
    rw [if_pos]
    refine ⟨h3, List.all_eq_true.mpr (fun c hc => (hex_char c).mpr (h4 c hc)), List.all_eq_true.mpr (fun c hc => ?_)⟩
    simpa using h2 c hc

example : IsIdLine "  0123456789012345678901234567890123456789 ".toList "0123456789012345678901234567890123456789".toList :=
  (C58_id_lines _ _).mp (by decide +kernel)

end Bean.Props

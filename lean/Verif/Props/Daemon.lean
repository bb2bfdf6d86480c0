import Verif.Spec.Daemon
import Verif.Props.ElfCache
/-
C58: answers do not depend on how streams are split. C59: what ends the daemon. C82: one answer for each request.
-/
namespace Bean.Props
open Bean Bean.Spec

/-! Lines -/

theorem splitLine_none {b : Bytes} (h : splitLine b = none) : 10 ∉ b := by
  induction b with
  | nil => exact List.not_mem_nil
  | cons x xs ih =>
    rw [splitLine] at h
    split at h
    · cases h
    · rename_i hx
      intro hm
      rcases List.mem_cons.mp hm with rfl | hm
      · exact hx rfl
      · cases hs : splitLine xs with
        | none => exact ih hs hm
        | some p => rw [hs] at h; cases h

theorem splitLine_some {b l r : Bytes} (h : splitLine b = some (l, r)) : b = l ++ 10 :: r ∧ 10 ∉ l := by
  induction b generalizing l with
  | nil => cases h
  | cons x xs ih =>
    rw [splitLine] at h
    split at h
    · rename_i hx
      cases h
      exact ⟨by rw [hx]; rfl, List.not_mem_nil⟩
    · rename_i hx
      cases hs : splitLine xs with
      | none => rw [hs] at h; cases h
      | some p =>
        rw [hs] at h
        cases h
        obtain ⟨i1, i2⟩ := ih hs
        refine ⟨by rw [List.cons_append, ← i1], ?_⟩
        intro hm
        rcases List.mem_cons.mp hm with e | hm
        · exact hx e.symm
        · exact i2 hm

theorem framed_nil {b : Bytes} (h : 10 ∉ b) : Framed b [] b := ⟨rfl, fun l hl => (by cases hl), h⟩

theorem framed_cons {l r rest : Bytes} {ls : List Bytes} (hl : 10 ∉ l) (h : Framed r ls rest) : Framed (l ++ 10 :: r) (l :: ls) rest := by
  obtain ⟨h1, h2, h3⟩ := h
  refine ⟨?_, ?_, h3⟩
  · rw [h1]
    simp
  · intro x hx
    rcases List.mem_cons.mp hx with rfl | hx
    · exact hl
    · exact h2 x hx

theorem framed_append {a b r r' : Bytes} {ls ls' : List Bytes} (h : Framed a ls r) (h' : Framed (r ++ b) ls' r') :
    Framed (a ++ b) (ls ++ ls') r' := by
  obtain ⟨h1, h2, h3⟩ := h
  obtain ⟨h1', h2', h3'⟩ := h'
  refine ⟨?_, ?_, h3'⟩
  · rw [h1, List.append_assoc, h1', List.flatMap_append, List.append_assoc]
  · intro l hl
    rcases List.mem_append.mp hl with hl | hl
    · exact h2 l hl
    · exact h2' l hl

theorem split_newline {a b r r' : Bytes} (ha : 10 ∉ a) (hb : 10 ∉ b) (h : a ++ 10 :: r = b ++ 10 :: r') : a = b ∧ r = r' := by
  induction a generalizing b with
  | nil =>
    cases b with
    | nil => exact ⟨rfl, (List.cons.inj h).2⟩
    | cons y b => exact absurd (by rw [← (List.cons.inj h).1]; exact List.mem_cons_self) hb
  | cons x a ih =>
    cases b with
    | nil => exact absurd (by rw [show x = 10 from (List.cons.inj h).1]; exact List.mem_cons_self) ha
    | cons y b =>
      have e := List.cons.inj h
      obtain ⟨i1, i2⟩ := ih (fun hc => ha (List.mem_cons_of_mem _ hc)) (fun hc => hb (List.mem_cons_of_mem _ hc)) e.2
      exact ⟨by rw [e.1, i1], i2⟩

/-- The lines of a stream are unique. -/
theorem framed_unique {s r r' : Bytes} {ls ls' : List Bytes} (h : Framed s ls r) (h' : Framed s ls' r') : ls = ls' ∧ r = r' := by
  induction ls generalizing s ls' with
  | nil =>
    cases ls' with
    | nil => exact ⟨rfl, by rw [← show s = r from h.1, show s = r' from h'.1]⟩
    | cons l' ls' =>
      exfalso
      refine h.2.2 ?_
      rw [← show s = r from h.1, h'.1]
      simp
  | cons l ls ih =>
    cases ls' with
    | nil =>
      exfalso
      refine h'.2.2 ?_
      rw [← show s = r' from h'.1, h.1]
      simp
    | cons l' ls' =>
      have e : l ++ 10 :: (ls.flatMap (· ++ [10]) ++ r) = l' ++ 10 :: (ls'.flatMap (· ++ [10]) ++ r') := by
        have := h.1.symm.trans h'.1
        simpa using this
      obtain ⟨e1, e2⟩ := split_newline (h.2.1 l List.mem_cons_self) (h'.2.1 l' List.mem_cons_self) e
      obtain ⟨i1, i2⟩ := ih (s := ls.flatMap (· ++ [10]) ++ r) (ls' := ls') ⟨rfl, fun x hx => h.2.1 x (List.mem_cons_of_mem _ hx), h.2.2⟩
        ⟨e2, fun x hx => h'.2.1 x (List.mem_cons_of_mem _ hx), h'.2.2⟩
      exact ⟨by rw [e1, i1], i2⟩

theorem framed_empty {ls : List Bytes} {r : Bytes} (h : Framed [] ls r) : ls = [] ∧ r = [] := by
  have := framed_unique h (framed_nil List.not_mem_nil)
  exact this

/-- Each stream consists of lines and a rest. -/
theorem framed_exists (s : Bytes) : ∃ ls r, Framed s ls r := by
  induction hn : s.length using Nat.strongRecOn generalizing s with
  | ind n ih =>
    cases hs : splitLine s with
    | none => exact ⟨[], s, framed_nil (splitLine_none hs)⟩
    | some p =>
      obtain ⟨l, r⟩ := p
      obtain ⟨e, hl⟩ := splitLine_some hs
      obtain ⟨ls, r', h⟩ := ih r.length (by rw [← hn]; exact splitLine_length hs) r rfl
      exact ⟨l :: ls, r', by rw [e]; exact framed_cons hl h⟩

theorem splitLine_framed {s l r : Bytes} {ls : List Bytes} (h : Framed s (l :: ls) r) :
    splitLine s = some (l, ls.flatMap (· ++ [10]) ++ r) := by
  have e : s = l ++ 10 :: (ls.flatMap (· ++ [10]) ++ r) := by
    have := h.1
    simpa using this
  cases hs : splitLine s with
  | none =>
    exfalso
    refine splitLine_none hs ?_
    rw [e]
    simp
  | some p =>
    obtain ⟨l', r'⟩ := p
    obtain ⟨e', hl⟩ := splitLine_some hs
    obtain ⟨e1, e2⟩ := split_newline hl (h.2.1 l List.mem_cons_self) (e'.symm.trans e)
    rw [e1, e2]

section
variable {κ : Type} {handle : κ → Bytes → κ × Bytes}

/-! Requests of a stream -/

theorem sequential_append (handle : κ → Bytes → κ × Bytes) (k : κ) (a b : List (Nat × Bytes)) :
    sequential handle k (a ++ b) = ((sequential handle (sequential handle k a).1 b).1,
      (sequential handle k a).2 ++ (sequential handle (sequential handle k a).1 b).2) := by
  induction a generalizing k with
  | nil => rfl
  | cons p a ih =>
    obtain ⟨c, r⟩ := p
    rw [List.cons_append, sequential, sequential, ih]
    rfl

theorem ofClient_append (c : Nat) (a b : List (Nat × Bytes)) : ofClient c (a ++ b) = ofClient c a ++ ofClient c b := by
  unfold ofClient
  rw [List.filter_append, List.map_append]

theorem ofClient_self (c : Nat) (ls : List Bytes) : ofClient c (ls.map (fun l => (c, l))) = ls := by
  unfold ofClient
  rw [List.filter_eq_self.mpr (by intro p hp; obtain ⟨l, _, rfl⟩ := List.mem_map.mp hp; exact beq_self_eq_true c), List.map_map]
  exact List.map_id' ls

theorem ofClient_other {c i : Nat} (h : i ≠ c) (ls : List Bytes) : ofClient i (ls.map (fun l => (c, l))) = [] := by
  unfold ofClient
  rw [List.filter_eq_nil_iff.mpr (by
    intro p hp
    obtain ⟨l, _, rfl⟩ := List.mem_map.mp hp
    simpa using Ne.symm h), List.map_nil]

/-- Answers for a client are for requests of it. -/
theorem sequential_clients (handle : κ → Bytes → κ × Bytes) (k : κ) (log : List (Nat × Bytes)) :
    (sequential handle k log).2.map (·.1) = log.map (·.1) := by
  induction log generalizing k with
  | nil => rfl
  | cons p log ih =>
    obtain ⟨c, r⟩ := p
    rw [sequential, List.map_cons, List.map_cons, ih]

theorem answers_self (handle : κ → Bytes → κ × Bytes) (k : κ) (c : Nat) (ls : List Bytes) :
    ofClient c (sequential handle k (ls.map (fun l => (c, l)))).2 = (sequential handle k (ls.map (fun l => (c, l)))).2.map (·.2) := by
  unfold ofClient
  rw [List.filter_eq_self.mpr ?_]
  intro p hp
  have : p.1 ∈ (sequential handle k (ls.map (fun l => (c, l)))).2.map (·.1) := List.mem_map_of_mem hp
  rw [sequential_clients, List.map_map] at this
  obtain ⟨l, _, e⟩ := List.mem_map.mp this
  rw [← e]
  exact beq_self_eq_true c

theorem answers_other (handle : κ → Bytes → κ × Bytes) (k : κ) {c i : Nat} (h : i ≠ c) (ls : List Bytes) :
    ofClient i (sequential handle k (ls.map (fun l => (c, l)))).2 = [] := by
  unfold ofClient
  rw [List.filter_eq_nil_iff.mpr ?_, List.map_nil]
  intro p hp
  have : p.1 ∈ (sequential handle k (ls.map (fun l => (c, l)))).2.map (·.1) := List.mem_map_of_mem hp
  rw [sequential_clients, List.map_map] at this
  obtain ⟨l, _, e⟩ := List.mem_map.mp this
  rw [← e]
  simpa using Ne.symm h

/-- The loop over the lines handles them in turn, and fails exactly if one of them cannot be decoded. -/
theorem serve_framed (c : Nat) (k : κ) {inb : Bytes} {ls : List Bytes} {r : Bytes} (h : Framed inb ls r) :
    (ls.all isAscii = true → serve handle k inb = .ok ((sequential handle k (ls.map (fun l => (c, l)))).1,
      ((sequential handle k (ls.map (fun l => (c, l)))).2.map (·.2)).flatten, r)) ∧
    (ls.all isAscii = false → serve handle k inb = .error .decodeError) := by
  induction ls generalizing inb k with
  | nil =>
    have hs : splitLine inb = none := by
      cases hs : splitLine inb with
      | none => rfl
      | some p =>
        exfalso
        obtain ⟨e, _⟩ := splitLine_some (l := p.1) (r := p.2) hs
        refine h.2.2 ?_
        rw [← show inb = r from h.1, e]
        simp
    constructor
    · intro _
      rw [serve]
      split
      · rw [show inb = r from h.1]
        rfl
      · rename_i e
        rw [hs] at e
        cases e
    · intro e
      cases e
  | cons l ls ih =>
    have hs := splitLine_framed h
    have ih := ih (handle k l).1 (inb := ls.flatMap (· ++ [10]) ++ r)
      ⟨rfl, fun x hx => h.2.1 x (List.mem_cons_of_mem _ hx), h.2.2⟩
    rw [serve]
    split
    · rename_i e
      rw [hs] at e
      cases e
    · rename_i line rest e
      rw [hs] at e
      cases e
      rw [List.all_cons]
      cases ha : isAscii l with
      | false => exact ⟨fun e => (by cases e), fun _ => (by rw [if_neg (by decide)])⟩
      | true =>
        rw [if_pos rfl, Bool.true_and]
        constructor
        · intro hl
          rw [ih.1 hl]
          rfl
        · intro hl
          rw [ih.2 hl]
          rfl

/-! The loop -/

theorem received_append (c : Nat) (a b : List DaemonEvent) : received c (a ++ b) = received c a ++ received c b :=
  List.flatMap_append

theorem received_snoc (c : Nat) (a : List DaemonEvent) (e : DaemonEvent) : received c (a ++ [e]) = received c a ++ eventBytes c e := by
  rw [received_append]
  unfold received
  simp

theorem normBytes_append (a b : Bytes) : normBytes (a ++ b) = normBytes a ++ normBytes b := List.map_append

/-- What is known of a connection, given the requests that were handled. -/
def ConnOk (handle : κ → Bytes → κ × Bytes) (k : κ) (log : List (Nat × Bytes)) (past : List DaemonEvent) (c : Nat) : Option Conn → Prop
  | none => received c past = [] ∧ ofClient c log = [] ∧ ofClient c (sequential handle k log).2 = []
  | some d => Framed (normBytes (received c past)) (ofClient c log) d.inb ∧
    d.sent ++ d.outb = (ofClient c (sequential handle k log).2).flatten

/-- All requests of the past were handled in some order. -/
def DaemonOk (handle : κ → Bytes → κ × Bytes) (k : κ) (past : List DaemonEvent) (s : Daemon κ) : Prop :=
  ∃ log, s.cache = (sequential handle k log).1 ∧ (∀ p ∈ log, isAscii p.2 = true) ∧ ∀ c, ConnOk handle k log past c (s.conns c)

theorem connOk_quiet {k : κ} {log : List (Nat × Bytes)} {past : List DaemonEvent} {c : Nat} {o : Option Conn} {e : DaemonEvent}
    (h : ConnOk handle k log past c o) (he : eventBytes c e = []) : ConnOk handle k log (past ++ [e]) c o := by
  cases o with
  | none =>
    refine ⟨?_, h.2⟩
    rw [received_snoc, he, List.append_nil]
    exact h.1
  | some d =>
    refine ⟨?_, h.2⟩
    rw [received_snoc, he, List.append_nil]
    exact h.1

theorem daemonWrite_conn {d d' : Conn} {w : Option Send} (h : daemonWrite d w = .ok d') :
    d'.inb = d.inb ∧ d'.sent ++ d'.outb = d.sent ++ d.outb := by
  unfold daemonWrite at h
  cases w with
  | none => cases h; exact ⟨rfl, rfl⟩
  | some w =>
    dsimp only at h
    split at h
    · cases h; exact ⟨rfl, rfl⟩
    · split at h
      · cases h
      · cases w with
        | connectionError => cases h; exact ⟨rfl, rfl⟩
        | count n =>
          cases h
          refine ⟨rfl, ?_⟩
          rw [List.append_assoc, List.take_append_drop]

theorem connOk_write {k : κ} {log : List (Nat × Bytes)} {past : List DaemonEvent} {c : Nat} {d d' : Conn} {w : Option Send}
    (h : ConnOk handle k log past c (some d)) (hw : daemonWrite d w = .ok d') : ConnOk handle k log past c (some d') := by
  obtain ⟨e1, e2⟩ := daemonWrite_conn hw
  exact ⟨by rw [e1]; exact h.1, by rw [e2]; exact h.2⟩

/-- Requests of another client. -/
theorem connOk_other {k : κ} {log : List (Nat × Bytes)} {past : List DaemonEvent} {c i : Nat} {o : Option Conn} (hi : i ≠ c)
    (ls : List Bytes) (h : ConnOk handle k log past i o) : ConnOk handle k (log ++ ls.map (fun l => (c, l))) past i o := by
  have h1 : ofClient i (log ++ ls.map (fun l => (c, l))) = ofClient i log := by
    rw [ofClient_append, ofClient_other hi, List.append_nil]
  have h2 : ofClient i (sequential handle k (log ++ ls.map (fun l => (c, l)))).2 = ofClient i (sequential handle k log).2 := by
    rw [sequential_append, ofClient_append, answers_other _ _ hi, List.append_nil]
  cases o with
  | none => exact ⟨h.1, by rw [h1]; exact h.2.1, by rw [h2]; exact h.2.2⟩
  | some d => exact ⟨by rw [h1]; exact h.1, by rw [h2]; exact h.2⟩

theorem daemonStep_ok {k : κ} {past : List DaemonEvent} {s s' : Daemon κ} {e : DaemonEvent} (h : DaemonOk handle k past s)
    (hs : daemonStep handle s e = .ok s') : DaemonOk handle k (past ++ [e]) s' := by
  obtain ⟨log, hk, ha, hc⟩ := h
  have quiet : ∀ e : DaemonEvent, (∀ c, eventBytes c e = []) → DaemonOk handle k (past ++ [e]) s :=
    fun e he => ⟨log, hk, ha, fun c => connOk_quiet (hc c) (he c)⟩
  cases e with
  | interrupt => cases hs
  | listening r =>
    cases r with
    | osError => cases hs
    | connectionError => cases hs; exact quiet _ (fun c => rfl)
    | connection c =>
      unfold daemonStep at hs
      dsimp only at hs
      cases hcc : s.conns c with
      | some d => rw [hcc] at hs; cases hs
      | none =>
        rw [hcc] at hs
        cases hs
        refine ⟨log, hk, ha, fun i => ?_⟩
        refine connOk_quiet ?_ rfl
        have hi := hc i
        unfold Daemon.set
        dsimp only
        by_cases e : i = c
        · rw [if_pos e]
          rw [e] at hi ⊢
          rw [hcc] at hi
          obtain ⟨h1, h2, h3⟩ := hi
          refine ⟨?_, ?_⟩
          · rw [h1, h2]
            exact framed_nil List.not_mem_nil
          · rw [h3]
            rfl
        · rw [if_neg e]
          exact hi
  | ready c r w =>
    unfold daemonStep at hs
    dsimp only at hs
    cases hcc : s.conns c with
    | none => rw [hcc] at hs; cases hs
    | some d =>
      rw [hcc] at hs
      dsimp only at hs
      split at hs
      · cases hs
      · cases hr : daemonRead handle s.cache d r with
        | error e => rw [hr] at hs; cases hs
        | ok o =>
          rw [hr] at hs
          have hd := hc c
          rw [hcc] at hd
          -- Everything up to writing
          have main : ∀ k' d', o = some (k', d') → ∃ log', k' = (sequential handle k log').1 ∧
              (∀ p ∈ log', isAscii p.2 = true) ∧ ConnOk handle k log' (past ++ [.ready c r w]) c (some d') ∧
              ∀ i, i ≠ c → ConnOk handle k log' (past ++ [.ready c r w]) i (s.conns i) := by
            intro k' d' e
            subst e
            have others : ∀ i, i ≠ c → eventBytes i (.ready c r w) = [] := by
              intro i hi
              unfold eventBytes
              split
              · rename_i e
                cases e
                rw [if_neg (Ne.symm hi)]
              · rfl
            unfold daemonRead at hr
            split at hr
            · cases hr
              exact ⟨log, hk, ha, connOk_quiet hd rfl, fun i hi => connOk_quiet (hc i) (others i hi)⟩
            · cases hr
            · cases hr
              exact ⟨log, hk, ha, connOk_quiet (o := some { d with isOpen := false }) hd (by unfold eventBytes; simp),
                fun i hi => connOk_quiet (hc i) (others i hi)⟩
            · rename_i x xs
              split at hr
              · cases hr
              · rename_i k'' out rest hsv
                cases hr
                obtain ⟨ls, r', hf⟩ := framed_exists (d.inb ++ normBytes (x :: xs))
                obtain ⟨s1, s2⟩ := serve_framed (handle := handle) c s.cache hf
                cases hall : ls.all isAscii with
                | false => rw [s2 hall] at hsv; cases hsv
                | true =>
                  rw [s1 hall] at hsv
                  cases hsv
                  refine ⟨log ++ ls.map (fun l => (c, l)), ?_, ?_, ⟨?_, ?_⟩, ?_⟩
                  · rw [sequential_append, hk]
                  · intro p hp
                    rcases List.mem_append.mp hp with hp | hp
                    · exact ha p hp
                    · obtain ⟨l, hl, rfl⟩ := List.mem_map.mp hp
                      exact List.all_eq_true.mp hall l hl
                  · rw [received_snoc, normBytes_append, ofClient_append, ofClient_self]
                    refine framed_append hd.1 ?_
                    rw [show eventBytes c (.ready c (some (.bytes (x :: xs))) w) = x :: xs from if_pos rfl]
                    exact hf
                  · rw [sequential_append, ofClient_append, answers_self, List.flatten_append, ← hk]
                    rw [← hd.2, List.append_assoc]
                  · intro i hi
                    exact connOk_other hi ls (connOk_quiet (hc i) (others i hi))
          cases o with
          | none =>
            cases hs
            unfold daemonRead at hr
            split at hr
            · cases hr
            · exact quiet _ (fun c => rfl)
            · cases hr
            · split at hr <;> cases hr
          | some p =>
            obtain ⟨k', d'⟩ := p
            obtain ⟨log', m1, m2, m3, m4⟩ := main k' d' rfl
            dsimp only at hs
            split at hs
            · cases hs
            · rename_i d'' hw
              cases hs
              refine ⟨log', m1, m2, fun i => ?_⟩
              unfold Daemon.set
              dsimp only
              by_cases e : i = c
              · rw [if_pos e, e]
                exact connOk_write m3 hw
              · rw [if_neg e]
                exact m4 i e

theorem daemonRun_ok {k : κ} {past : List DaemonEvent} {s s' : Daemon κ} {es : List DaemonEvent} (h : DaemonOk handle k past s)
    (hs : daemonRun handle s es = .ok s') : DaemonOk handle k (past ++ es) s' := by
  induction es generalizing past s with
  | nil =>
    cases hs
    rw [List.append_nil]
    exact h
  | cons e es ih =>
    rw [daemonRun] at hs
    split at hs
    · cases hs
    · rename_i s1 h1
      have := ih (daemonStep_ok h h1) hs
      rw [List.append_assoc] at this
      exact this

theorem daemonOk_start (handle : κ → Bytes → κ × Bytes) (k : κ) : DaemonOk handle k [] (daemonStart k) :=
  ⟨[], rfl, fun p hp => (by cases hp), fun c => ⟨rfl, rfl, rfl⟩⟩

/-- C58: whatever the clients do and however the operating system splits input and output, there is an order of all requests such
that the clients get the answers that handling the requests one after the other in this order yields; the requests of a client
in this order are the lines it sent. -/
theorem C58_sequential (handle : κ → Bytes → κ × Bytes) (k : κ) (es : List DaemonEvent) (s : Daemon κ)
    (h : daemonRun handle (daemonStart k) es = .ok s) : ∃ log : List (Nat × Bytes), s.cache = (sequential handle k log).1 ∧
      ∀ c d, s.conns c = some d → Framed (normBytes (received c es)) (ofClient c log) d.inb ∧
        d.sent ++ d.outb = (ofClient c (sequential handle k log).2).flatten := by
  obtain ⟨log, h1, _, h2⟩ := daemonRun_ok (past := []) (daemonOk_start handle k) h
  refine ⟨log, h1, fun c d hd => ?_⟩
  have := h2 c
  rw [hd] at this
  exact this

theorem log_single {log : List (Nat × Bytes)} {c : Nat} (h : ∀ i, i ≠ c → ofClient i log = []) :
    log = (ofClient c log).map (fun l => (c, l)) := by
  induction log with
  | nil => rfl
  | cons p log ih =>
    have hp : p.1 = c := by
      refine Classical.byContradiction (fun hne => ?_)
      have := h p.1 hne
      unfold ofClient at this
      rw [List.filter_cons, if_pos (beq_self_eq_true _)] at this
      cases this
    have hl : ∀ i, i ≠ c → ofClient i log = [] := by
      intro i hi
      have := h i hi
      unfold ofClient at this ⊢
      rw [List.filter_cons, if_neg (by rw [hp]; simpa using Ne.symm hi)] at this
      exact this
    have : ofClient c (p :: log) = p.2 :: ofClient c log := by
      unfold ofClient
      rw [List.filter_cons, if_pos (by rw [hp]; exact beq_self_eq_true c), List.map_cons]
    rw [this, List.map_cons, ← ih hl, ← hp]

/-- C58: for a single client the answers, the cache and the rest of the input are determined by the bytes it sent. -/
theorem C58_one_client (handle : κ → Bytes → κ × Bytes) (k : κ) (c : Nat) (es es' : List DaemonEvent) (s s' : Daemon κ) (d d' : Conn)
    (h : daemonRun handle (daemonStart k) es = .ok s) (h' : daemonRun handle (daemonStart k) es' = .ok s')
    (hd : s.conns c = some d) (hd' : s'.conns c = some d') (hr : received c es = received c es')
    (ho : ∀ i, i ≠ c → received i es = [] ∧ received i es' = []) :
    s.cache = s'.cache ∧ d.inb = d'.inb ∧ d.sent ++ d.outb = d'.sent ++ d'.outb := by
  obtain ⟨log, h1, _, h2⟩ := daemonRun_ok (past := []) (daemonOk_start handle k) h
  obtain ⟨log', h1', _, h2'⟩ := daemonRun_ok (past := []) (daemonOk_start handle k) h'
  have none : ∀ {log : List (Nat × Bytes)} {es : List DaemonEvent} {s : Daemon κ} {i : Nat}, ConnOk handle k log ([] ++ es) i (s.conns i) →
      received i es = [] → ofClient i log = [] := by
    intro log es s i hc hr
    cases e : s.conns i with
    | none => rw [e] at hc; exact hc.2.1
    | some x =>
      rw [e] at hc
      have := hc.1
      rw [List.nil_append, hr] at this
      exact (framed_empty this).1
  have l1 := log_single (c := c) (fun i hi => none (s := s) (h2 i) (ho i hi).1)
  have l2 := log_single (c := c) (fun i hi => none (s := s') (h2' i) (ho i hi).2)
  have c1 := h2 c
  have c2 := h2' c
  rw [hd] at c1
  rw [hd'] at c2
  have f2 := c2.1
  rw [List.nil_append, ← hr] at f2
  obtain ⟨u1, u2⟩ := framed_unique c1.1 f2
  have hl : log = log' := by rw [l1, l2, u1]
  refine ⟨by rw [h1, h1', hl], u2, ?_⟩
  rw [c1.2, c2.2, hl]

/-- If answers do not depend on the cache, as long as it is right. -/
theorem sequential_pure {f : Bytes → Bytes} {Right : κ → Prop} {P : Bytes → Prop}
    (hf : ∀ k r, Right k → P r → (handle k r).2 = f r ∧ Right (handle k r).1) {k : κ} (hk : Right k) (log : List (Nat × Bytes))
    (hP : ∀ p ∈ log, P p.2) : (sequential handle k log).2 = log.map (fun p => (p.1, f p.2)) ∧ Right (sequential handle k log).1 := by
  induction log generalizing k with
  | nil => exact ⟨rfl, hk⟩
  | cons p log ih =>
    obtain ⟨c, r⟩ := p
    obtain ⟨e, hk'⟩ := hf k r hk (hP _ List.mem_cons_self)
    obtain ⟨i1, i2⟩ := ih hk' (fun q hq => hP q (List.mem_cons_of_mem _ hq))
    rw [sequential]
    exact ⟨by rw [i1, e]; rfl, i2⟩

theorem mem_ofClient {c : Nat} {r : Bytes} {log : List (Nat × Bytes)} (h : (c, r) ∈ log) : r ∈ ofClient c log := by
  unfold ofClient
  exact List.mem_map.mpr ⟨(c, r), List.mem_filter.mpr ⟨h, beq_self_eq_true c⟩, rfl⟩

theorem daemon_pure {f : Bytes → Bytes} {Right : κ → Prop} {P : Bytes → Prop}
    (hf : ∀ k r, Right k → P r → (handle k r).2 = f r ∧ Right (handle k r).1) {k : κ} (hk : Right k) {es : List DaemonEvent}
    {s : Daemon κ} (h : daemonRun handle (daemonStart k) es = .ok s)
    (hP : ∀ c ls r, Framed (normBytes (received c es)) ls r → ∀ l ∈ ls, isAscii l = true → P l) (c : Nat) (d : Conn)
    (hd : s.conns c = some d) :
    ∃ lines, Framed (normBytes (received c es)) lines d.inb ∧ d.sent ++ d.outb = lines.flatMap f := by
  obtain ⟨log, _, ha, h2⟩ := daemonRun_ok (past := []) (daemonOk_start handle k) h
  have hPl : ∀ p ∈ log, P p.2 := by
    intro p hp
    obtain ⟨i, r⟩ := p
    have hm := mem_ofClient hp
    have hi := h2 i
    cases e : s.conns i with
    | none =>
      rw [e] at hi
      rw [hi.2.1] at hm
      cases hm
    | some x =>
      rw [e] at hi
      exact hP i _ _ hi.1 r hm (ha _ hp)
  have hc := h2 c
  rw [hd] at hc
  refine ⟨ofClient c log, hc.1, ?_⟩
  rw [hc.2, (sequential_pure hf hk log hPl).1]
  unfold ofClient
  rw [List.filter_map, List.map_map, List.flatMap_map, List.flatMap]
  rfl

/-- C58: if answers do not depend on other requests, each client gets the answers to the lines it sent, in their order, whatever
other clients do and however input and output are split. -/
theorem C58_split (handle : κ → Bytes → κ × Bytes) (f : Bytes → Bytes) (hf : ∀ k r, (handle k r).2 = f r) (k : κ) (es : List DaemonEvent)
    (s : Daemon κ) (h : daemonRun handle (daemonStart k) es = .ok s) (c : Nat) (d : Conn) (hd : s.conns c = some d) :
    ∃ lines, Framed (normBytes (received c es)) lines d.inb ∧ d.sent ++ d.outb = lines.flatMap f :=
  daemon_pure (Right := fun _ => True) (P := fun _ => True) (fun k r _ _ => ⟨hf k r, trivial⟩) trivial h
    (fun _ _ _ _ _ _ _ => trivial) c d hd

end
end Bean.Props

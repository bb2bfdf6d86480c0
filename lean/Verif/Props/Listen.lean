import Verif.Spec.Listen
import Verif.Props.DaemonEnd
/-
C128: the server for variables listens where it is told to.
-/
namespace Bean.Props
open Bean Bean.Spec Bean.Listen

/-! ### Hosts -/

theorem isAlnum_eq (c : Char) : isAlnum c = c.isAlphanum := by
  have e : isAlnum c = ((decide ('a'.val ≤ c.val) && decide (c.val ≤ 'z'.val)) || (decide ('A'.val ≤ c.val) && decide (c.val ≤ 'Z'.val)) ||
      (decide ('0'.val ≤ c.val) && decide (c.val ≤ '9'.val))) := rfl
  have e' : c.isAlphanum = ((decide ('A'.val ≤ c.val ∧ c.val ≤ 'Z'.val) || (decide ('a'.val ≤ c.val) && decide (c.val ≤ 'z'.val))) ||
      (decide ('0'.val ≤ c.val) && decide (c.val ≤ '9'.val))) := rfl
  rw [e, e', Bool.decide_and, Bool.or_comm (decide ('a'.val ≤ c.val) && decide (c.val ≤ 'z'.val))]

theorem hyphen_alnum : ('-' : Char).isAlphanum = false := by decide

theorem isLabel_iff (l : Str) : isLabel l = true ↔ HostPart l := by
  match l with
  | [] => exact ⟨nofun, fun h => absurd rfl h.1⟩
  | [c] =>
    rw [isLabel, isAlnum_eq]
    constructor
    · intro h
      refine ⟨by simp, fun x hx => ?_, ?_, ?_⟩
      · rw [List.mem_singleton.mp hx]; exact Or.inl h
      · intro e; rw [Option.some.inj e, hyphen_alnum] at h; cases h
      · intro e; rw [show c = '-' from Option.some.inj e, hyphen_alnum] at h; cases h
    · rintro ⟨_, h1, h2, _⟩
      rcases h1 c List.mem_cons_self with h | h
      · exact h
      · rw [h] at h2; exact absurd rfl h2
  | c :: d :: rest =>
    rw [isLabel, isAlnum_eq, isAlnum_eq, Bool.and_eq_true, Bool.and_eq_true, List.all_eq_true]
    have hlast : (c :: d :: rest).getLast? = some ((d :: rest).getLast (by simp)) := by
      rw [List.getLast?_cons_cons, List.getLast?_eq_some_getLast (by simp)]
    constructor
    · rintro ⟨⟨h1, h2⟩, h3⟩
      refine ⟨by simp, fun x hx => ?_, ?_, ?_⟩
      · rcases List.mem_cons.mp hx with rfl | hx
        · exact Or.inl h1
        · rw [← List.dropLast_concat_getLast (show d :: rest ≠ [] by simp)] at hx
          rcases List.mem_append.mp hx with hx | hx
          · have := h2 x hx
            rw [isAlnum_eq] at this
            simpa using this
          · rw [List.mem_singleton.mp hx]; exact Or.inl h3
      · intro e; rw [Option.some.inj e, hyphen_alnum] at h1; cases h1
      · rw [hlast]
        intro e
        rw [Option.some.inj e, hyphen_alnum] at h3
        cases h3
    · rintro ⟨_, h1, h2, h3⟩
      rw [hlast] at h3
      refine ⟨⟨?_, fun x hx => ?_⟩, ?_⟩
      · rcases h1 c List.mem_cons_self with h | h
        · exact h
        · rw [h] at h2; exact absurd rfl h2
      · rw [isAlnum_eq]
        have := h1 x (List.mem_cons_of_mem _ (List.dropLast_subset _ hx))
        simpa using this
      · rcases h1 _ (List.mem_cons_of_mem _ (List.getLast_mem (show d :: rest ≠ [] by simp))) with h | h
        · exact h
        · rw [h] at h3; exact absurd rfl h3

theorem splitDots_ne (s : Str) : splitDots s ≠ [] := by
  cases s with
  | nil => simp [splitDots]
  | cons c r =>
    simp only [splitDots]
    split
    · simp
    · split <;> simp

theorem splitDots_append (a b : Str) : splitDots (a ++ '.' :: b) = splitDots a ++ splitDots b := by
  induction a with
  | nil => simp [splitDots]
  | cons c r ih =>
    rw [List.cons_append]
    simp only [splitDots]
    rw [ih]
    split
    · rfl
    · cases hs : splitDots r with
      | nil => exact absurd hs (splitDots_ne r)
      | cons p ps => rfl

theorem splitDots_plain {s : Str} (h : '.' ∉ s) : splitDots s = [s] := by
  induction s with
  | nil => rfl
  | cons c r ih =>
    simp only [splitDots]
    rw [if_neg (fun e : c = '.' => h (e ▸ List.mem_cons_self)), ih (fun e => h (List.mem_cons_of_mem _ e))]

theorem intercalate_cons (x y : Str) (l : List Str) : ['.'].intercalate (x :: y :: l) = x ++ '.' :: ['.'].intercalate (y :: l) := by
  rw [List.intercalate_cons_cons]
  simp

theorem splitDots_join (l : List Str) (hl : l ≠ []) (h : ∀ x ∈ l, '.' ∉ x) : splitDots (['.'].intercalate l) = l := by
  match l with
  | [] => exact absurd rfl hl
  | [x] =>
    rw [List.intercalate_singleton]
    exact splitDots_plain (h x List.mem_cons_self)
  | x :: y :: l =>
    rw [intercalate_cons, splitDots_append, splitDots_plain (h x List.mem_cons_self),
      splitDots_join (y :: l) (by simp) (fun z hz => h z (List.mem_cons_of_mem _ hz))]
    rfl

theorem join_splitDots (s : Str) : ['.'].intercalate (splitDots s) = s := by
  induction s with
  | nil => rfl
  | cons c r ih =>
    simp only [splitDots]
    cases hs : splitDots r with
    | nil => exact absurd hs (splitDots_ne r)
    | cons p ps =>
      rw [hs] at ih
      split
      · next h => rw [intercalate_cons, ih, h]; rfl
      · cases ps with
        | nil =>
          rw [List.intercalate_singleton] at ih ⊢
          rw [ih]
        | cons q qs =>
          rw [intercalate_cons] at ih ⊢
          rw [← ih]
          rfl

theorem hostPart_dot {l : Str} (h : HostPart l) : '.' ∉ l := by
  intro hm
  rcases h.2.1 _ hm with h | h
  · exact absurd h (by decide)
  · exact absurd h (by decide)

theorem isHost_iff (h : Str) : isHost h = true ↔ HostName h := by
  unfold isHost HostName
  rw [List.all_eq_true]
  constructor
  · intro hl
    exact ⟨splitDots h, splitDots_ne h, fun l hm => (isLabel_iff l).mp (hl l hm), (join_splitDots h).symm⟩
  · rintro ⟨ls, h1, h2, rfl⟩ l hm
    rw [splitDots_join ls h1 (fun x hx => hostPart_dot (h2 x hx))] at hm
    exact (isLabel_iff l).mpr (h2 l hm)

theorem digit_part {l : Str} (h0 : l ≠ []) (h : ∀ c ∈ l, c.isDigit = true) : HostPart l := by
  have hh : ∀ c ∈ l, c ≠ '-' := fun c hc e => absurd (h c hc) (by rw [e]; decide)
  refine ⟨h0, fun c hc => Or.inl ?_, fun e => ?_, fun e => ?_⟩
  · rw [Char.isAlphanum, h c hc, Bool.or_true]
  · exact hh _ (List.mem_of_mem_head? e) rfl
  · exact hh _ (List.mem_of_getLast? e) rfl

theorem char_between {a b c : Char} (h1 : a ≤ c) (h2 : c ≤ b) (ha : '0' ≤ a) (hb : b ≤ '9') : c.isDigit = true := by
  unfold Char.isDigit
  have e1 : ('0' : Char).val ≤ c.val := UInt32.le_trans ha h1
  have e2 : c.val ≤ ('9' : Char).val := UInt32.le_trans h2 hb
  rw [Bool.and_eq_true]
  exact ⟨decide_eq_true e1, decide_eq_true e2⟩

theorem isOctet_label {s : Str} (h : isOctet s = true) : isLabel s = true := by
  rw [isLabel_iff]
  unfold isOctet at h
  split at h
  · refine digit_part (by simp) fun x hx => ?_
    rw [List.mem_singleton.mp hx]; exact h
  · rw [Bool.and_eq_true] at h
    refine digit_part (by simp) fun x hx => ?_
    rcases List.mem_cons.mp hx with rfl | hx
    · exact h.1
    · rw [List.mem_singleton.mp hx]; exact h.2
  · next a b c =>
    have hd : a.isDigit = true ∧ b.isDigit = true ∧ c.isDigit = true := by
      simp only [Bool.or_eq_true, Bool.and_eq_true, beq_iff_eq, decide_eq_true_eq] at h
      rcases h with (⟨⟨⟨rfl, rfl⟩, h3⟩, h4⟩ | ⟨⟨⟨rfl, h2⟩, h3⟩, h4⟩) | ⟨⟨h1, h2⟩, h3⟩
      · exact ⟨by decide, by decide, char_between h3 h4 (by decide) (by decide)⟩
      · exact ⟨by decide, char_between h2 h3 (by decide) (by decide), h4⟩
      · refine ⟨?_, h2, h3⟩
        rcases h1 with rfl | rfl <;> decide
    refine digit_part (by simp) fun x hx => ?_
    simp only [List.mem_cons, List.not_mem_nil, or_false] at hx
    rcases hx with rfl | rfl | rfl
    · exact hd.1
    · exact hd.2.1
    · exact hd.2.2
  · cases h

theorem ipv4_host {h : Str} (h4 : isIpv4 h = true) : isHost h = true := by
  unfold isIpv4 at h4
  rw [Bool.and_eq_true, List.all_eq_true] at h4
  exact List.all_eq_true.mpr fun l hl => isOctet_label (h4.2 l hl)

theorem host_either (h : Str) : (isIpv4 h || isHost h) = true ↔ HostName h := by
  rw [← isHost_iff, Bool.or_eq_true]
  exact ⟨fun h => h.elim ipv4_host id, Or.inr⟩

/-! ### Spaces -/

theorem hostName_char {h : Str} (hh : HostName h) : h ≠ [] ∧ ∀ c ∈ h, c.isAlphanum = true ∨ c = '-' ∨ c = '.' := by
  obtain ⟨ls, h1, h2, rfl⟩ := hh
  refine ⟨?_, ?_⟩
  · match ls with
    | [] => exact absurd rfl h1
    | [x] => rw [List.intercalate_singleton]; exact (h2 x List.mem_cons_self).1
    | x :: y :: l => rw [intercalate_cons]; simp
  · clear h1
    induction ls with
    | nil => intro c hc; cases hc
    | cons x l ih =>
      have hx : ∀ c ∈ x, c.isAlphanum = true ∨ c = '-' ∨ c = '.' := by
        intro c hc
        rcases (h2 x List.mem_cons_self).2.1 c hc with h | h
        · exact Or.inl h
        · exact Or.inr (Or.inl h)
      cases l with
      | nil => rw [List.intercalate_singleton]; exact hx
      | cons y l =>
        rw [intercalate_cons]
        intro c hc
        rcases List.mem_append.mp hc with hc | hc
        · exact hx c hc
        · rcases List.mem_cons.mp hc with rfl | hc
          · exact Or.inr (Or.inr rfl)
          · exact ih (fun z hz => h2 z (List.mem_cons_of_mem _ hz)) c hc

theorem spaces_front (m : Nat) {x : Str} (hx : ∀ c, x.head? = some c → c ≠ ' ') :
    (List.replicate m ' ' ++ x).dropWhile (· == ' ') = x := by
  induction m with
  | zero =>
    cases x with
    | nil => rfl
    | cons c x =>
      have := hx c rfl
      simp [this]
  | succ m ih => rw [List.replicate_succ, List.cons_append, List.dropWhile_cons, if_pos (by rfl), ih]

theorem front_spaces (s : Str) : ∃ m, s = List.replicate m ' ' ++ s.dropWhile (· == ' ') := by
  induction s with
  | nil => exact ⟨0, rfl⟩
  | cons c s ih =>
    rw [List.dropWhile_cons]
    split
    · next h =>
      obtain ⟨m, hm⟩ := ih
      refine ⟨m + 1, ?_⟩
      rw [List.replicate_succ, List.cons_append, ← hm, eq_of_beq h]
    · exact ⟨0, rfl⟩

theorem spaces_back (n : Nat) {x : Str} (hx : ∀ c, x.getLast? = some c → c ≠ ' ') : dropSpaces (x ++ List.replicate n ' ') = x := by
  unfold dropSpaces
  rw [List.reverse_append, List.reverse_replicate, spaces_front n (fun c hc => hx c (by rwa [List.head?_reverse] at hc)), List.reverse_reverse]

theorem back_spaces (s : Str) : ∃ n, s = dropSpaces s ++ List.replicate n ' ' := by
  obtain ⟨n, hn⟩ := front_spaces s.reverse
  refine ⟨n, ?_⟩
  have := congrArg List.reverse hn
  rw [List.reverse_reverse, List.reverse_append, List.reverse_replicate] at this
  exact this

theorem newline_cut (s : Str) : ∃ nl, (nl = [] ∨ nl = ['\n']) ∧ s = dropNewline s ++ nl := by
  unfold dropNewline
  split
  · next h => 
    obtain ⟨ys, rfl⟩ := List.getLast?_eq_some_iff.mp h
    exact ⟨['\n'], Or.inr rfl, by rw [List.dropLast_concat]⟩
  · exact ⟨[], Or.inl rfl, (List.append_nil _).symm⟩

theorem cut_newline {s nl : Str} (h : nl = [] ∨ nl = ['\n']) (hs : ∀ c, s.getLast? = some c → c ≠ '\n') : dropNewline (s ++ nl) = s := by
  unfold dropNewline
  rcases h with rfl | rfl
  · rw [List.append_nil, if_neg (fun e => hs _ e rfl)]
  · rw [if_pos List.getLast?_concat, List.dropLast_concat]

theorem colon_cut {host port : Str} (h : ':' ∉ host) : (host ++ ':' :: port).takeWhile (· != ':') = host ∧
    (host ++ ':' :: port).dropWhile (· != ':') = ':' :: port := by
  induction host with
  | nil => exact ⟨rfl, rfl⟩
  | cons c host ih =>
    have hc : (c != ':') = true := by simpa using fun e : c = ':' => h (e ▸ List.mem_cons_self)
    obtain ⟨h1, h2⟩ := ih (fun e => h (List.mem_cons_of_mem _ e))
    rw [List.cons_append, List.takeWhile_cons, List.dropWhile_cons, if_pos hc, if_pos hc, h1, h2]
    exact ⟨rfl, rfl⟩

theorem match_colon {t host port : Str} : (∃ c, t.takeWhile (· != ':') = host ∧ t.dropWhile (· != ':') = c :: port) ↔
    ':' ∉ host ∧ t = host ++ ':' :: port := by
  constructor
  · rintro ⟨c, h1, h2⟩
    have hc : c = ':' := by
      have := List.head?_dropWhile_not (· != ':') t
      rw [h2] at this
      simpa using this
    have h3 : t = t.takeWhile (· != ':') ++ t.dropWhile (· != ':') := (List.takeWhile_append_dropWhile).symm
    refine ⟨?_, ?_⟩
    · rw [← h1]
      intro hm
      have := List.all_eq_true.mp (List.all_takeWhile (p := (· != ':')) (l := t)) _ hm
      simp at this
    · rw [h3, h1, h2, hc]
  · rintro ⟨h1, rfl⟩
    exact ⟨':', colon_cut h1⟩

theorem inetMatch_iff (s host port : Str) : inetMatch s = some (host, port) ↔ NetAddress s host port := by
  have key : inetMatch s = some (host, port) ↔ HostName host ∧ port ≠ [] ∧ port.length ≤ 5 ∧ (∀ c ∈ port, c.isDigit = true) ∧
      dropSpaces ((dropNewline s).dropWhile (· == ' ')) = host ++ ':' :: port := by
    unfold inetMatch
    dsimp only
    generalize dropSpaces ((dropNewline s).dropWhile (· == ' ')) = t
    constructor
    · intro h
      cases hd : t.dropWhile (· != ':') with
      | nil => rw [hd] at h; cases h
      | cons c p =>
        rw [hd] at h
        dsimp only at h
        split at h
        · next hc =>
          cases h
          simp only [Bool.and_eq_true, decide_eq_true_eq, List.all_eq_true] at hc
          obtain ⟨⟨⟨h1, h2⟩, h3⟩, h4⟩ := hc
          have hp : port ≠ [] := fun e => by rw [e] at h2; simp at h2
          refine ⟨(host_either _).mp h1, hp, h3, h4, ?_⟩
          exact (match_colon.mp ⟨c, rfl, hd⟩).2
        · cases h
    · rintro ⟨h1, h2, h3, h4, rfl⟩
      have hn : ':' ∉ host := by
        intro hm
        rcases (hostName_char h1).2 _ hm with h | h | h <;> exact absurd h (by decide)
      obtain ⟨e1, e2⟩ := colon_cut (port := port) hn
      rw [e1, e2]
      dsimp only
      rw [if_pos]
      simp only [Bool.and_eq_true, decide_eq_true_eq, List.all_eq_true]
      exact ⟨⟨⟨(host_either _).mpr h1, by cases port with | nil => exact absurd rfl h2 | cons _ _ => simp⟩, h3⟩, h4⟩
  rw [key]
  unfold NetAddress
  constructor
  · rintro ⟨h1, h2, h3, h4, h5⟩
    refine ⟨h1, h2, h3, h4, ?_⟩
    obtain ⟨nl, h6, h7⟩ := newline_cut s
    obtain ⟨m, h8⟩ := front_spaces (dropNewline s)
    obtain ⟨n, h9⟩ := back_spaces ((dropNewline s).dropWhile (· == ' '))
    refine ⟨m, n, nl, h6, ?_⟩
    rw [h5] at h9
    rw [h9, ← List.append_assoc] at h8
    rw [← h8]
    exact h7
  · rintro ⟨h1, h2, h3, h4, m, n, nl, h5, h6⟩
    refine ⟨h1, h2, h3, h4, ?_⟩
    have hend : ∀ c, (host ++ ':' :: port).getLast? = some c → c.isDigit = true := by
      intro c hc
      obtain ⟨d, hd⟩ : ∃ d, port.getLast? = some d := ⟨_, List.getLast?_eq_some_getLast h2⟩
      rw [List.getLast?_append, List.getLast?_cons, hd] at hc
      exact h4 c (List.mem_of_getLast? (hd.trans hc))
    have e1 : dropNewline s = List.replicate m ' ' ++ (host ++ ':' :: port) ++ List.replicate n ' ' := by
      rw [h6]
      refine cut_newline h5 fun c hc => ?_
      rw [List.getLast?_append, List.getLast?_append] at hc
      intro e
      rw [e] at hc
      cases n with
      | zero =>
        have h7 : (host ++ ':' :: port).getLast? = some '\n' := by
          cases h8 : (host ++ ':' :: port).getLast? with
          | none => rw [List.getLast?_eq_none_iff] at h8; simp at h8
          | some x =>
            rw [h8] at hc
            exact hc
        exact absurd (hend _ h7) (by decide)
      | succ n =>
        rw [List.replicate_succ', List.getLast?_concat] at hc
        exact absurd (Option.some.inj hc) (by decide)
    rw [e1, List.append_assoc, spaces_front m, spaces_back n]
    · intro c hc e
      rw [e] at hc
      exact absurd (hend _ hc) (by decide)
    · intro c hc e
      obtain ⟨h7, h8⟩ := hostName_char h1
      cases host with
      | nil => exact h7 rfl
      | cons x host =>
        have hx : x = c := Option.some.inj hc
        rcases h8 x List.mem_cons_self with h | h | h <;> rw [hx, e] at h <;> exact absurd h (by decide)

/-! ### Properties -/

/-- C128: the server uses a network socket exactly for addresses that consist of a host and a port, with this host and port; other texts are names
of files, and existing files are not touched. Missing: ports that do not exist (see `C128_port_counterexample`). -/
theorem C128_address_partial (present : Str → Bool) (s : Str) :
    (∀ host port, NetAddress s host port → Nat.ofDigitChars 10 port 0 < 65536 →
      startServer present s = .tcp host (Nat.ofDigitChars 10 port 0)) ∧
    (∀ host n, startServer present s = .tcp host n → n < 65536 ∧ ∃ port, NetAddress s host port ∧ n = Nat.ofDigitChars 10 port 0) ∧
    ((∀ host port, ¬ NetAddress s host port) → startServer present s = if present s then .occupied s else .unix s) := by
  have hn : ∀ p, portNumber p = Nat.ofDigitChars 10 p 0 := fun _ => rfl
  refine ⟨fun host port h hp => ?_, fun host n h => ?_, fun h => ?_⟩
  · rw [startServer, (inetMatch_iff s host port).mpr h]
    dsimp only
    rw [hn, if_pos hp]
  · rw [startServer] at h
    cases hm : inetMatch s with
    | none =>
      rw [hm] at h
      dsimp only at h
      split at h <;> cases h
    | some x =>
      obtain ⟨host', port⟩ := x
      rw [hm] at h
      dsimp only at h
      split at h
      · next hlt =>
        cases h
        exact ⟨hlt, port, (inetMatch_iff s host port).mp hm, rfl⟩
      · cases h
  · rw [startServer]
    cases hm : inetMatch s with
    | none => rfl
    | some x => exact absurd ((inetMatch_iff s x.1 x.2).mp hm) (h x.1 x.2)

/-- C128: paths with a slash are names of files. -/
theorem C128_path (present : Str → Bool) (s : Str) (h : '/' ∈ s) : startServer present s = if present s then .occupied s else .unix s := by
  refine (C128_address_partial present s).2.2 ?_
  rintro host port ⟨h1, _, _, h2, m, n, nl, h3, h4⟩
  rw [h4] at h
  rcases List.mem_append.mp h with h | h
  · rcases List.mem_append.mp h with h | h
    · rcases List.mem_append.mp h with h | h
      · exact absurd (List.eq_of_mem_replicate h) (by decide)
      · rcases List.mem_append.mp h with h | h
        · rcases (hostName_char h1).2 _ h with h | h | h <;> exact absurd h (by decide)
        · rcases List.mem_cons.mp h with h | h
          · exact absurd h (by decide)
          · exact absurd (h2 _ h) (by decide)
    · exact absurd (List.eq_of_mem_replicate h) (by decide)
  · rcases h3 with h3 | h3 <;> rw [h3] at h
    · cases h
    · exact absurd (List.mem_singleton.mp h) (by decide)

/-- Hosts with hyphens, numbers, and spaces around the address. -/
example : startServer (fun _ => false) " build-1.example.org:8080 ".toList = .tcp "build-1.example.org".toList 8080 ∧
    startServer (fun _ => false) "127.0.0.1:80".toList = .tcp "127.0.0.1".toList 80 ∧
    startServer (fun _ => false) "/run/elfvars.sock".toList = .unix "/run/elfvars.sock".toList ∧
    startServer (fun _ => true) "elfvars.sock".toList = .occupied "elfvars.sock".toList := by
  decide +kernel

/-- C128 does not hold in general: a port that does not exist makes the program fail without a message. -/
theorem C128_port_counterexample : ∃ s host port, NetAddress s host port ∧ ∀ present, startServer present s = .overflow 70000 := by
  have h : inetMatch "localhost:70000".toList = some ("localhost".toList, "70000".toList) := by decide +kernel
  refine ⟨"localhost:70000".toList, "localhost".toList, "70000".toList, (inetMatch_iff _ _ _).mp h, fun present => ?_⟩
  rw [startServer, h]
  dsimp only
  have hp : portNumber "70000".toList = 70000 := by decide +kernel
  rw [hp]
  rfl

/-- C128: addresses of version 6 of the internet protocol and hosts with underscores are taken for files. -/
theorem C128_files_counterexample : ∀ s ∈ ["[::1]:8080", "build_1:8080"], startServer (fun _ => false) s.toList = .unix s.toList := by
  decide +kernel

/-- C128: after an interrupt the server can be started again. -/
theorem C128_again (present : Str → Bool) (path : Str) (h : startServer present path = .unix path) :
    startServer (endServer present path .interrupt) path = .unix path := by
  rw [startServer] at h ⊢
  cases hm : inetMatch path with
  | none =>
    dsimp only
    rw [if_neg]
    show ¬ (if path = path then false else present path) = true
    rw [if_pos rfl]
    nofun
  | some x =>
    rw [hm] at h
    dsimp only at h
    split at h <;> cases h

theorem ready_interrupt {κ : Type} {handle : κ → Bytes → κ × Bytes} {s : Daemon κ} {c : Nat} {r : Option Recv} {w : Option Send} {e : DaemonEnd}
    (h : daemonStep handle s (.ready c r w) = .error e) : e ≠ .interrupt := by
  rintro rfl
  unfold daemonStep at h
  dsimp only at h
  split at h
  · cases h
  · split at h
    · cases h
    · split at h
      · next h1 => cases h; cases (daemonRead_error.mp h1).1
      · cases h
      · split at h
        · next h1 => cases h; cases (daemonWrite_error.mp h1).1
        · cases h

/-- C128 does not hold in general: if a client ended the server with two bytes (C59), the server cannot be started again before the file of the socket is
removed by hand. -/
theorem C128_restart_counterexample {κ : Type} (handle : κ → Bytes → κ × Bytes) (s : Daemon κ) (c : Nat) (d : Conn) (hc : Connected s c d)
    (x : UInt8) (hx : 128 ≤ x) (w : Option Send) (present : Str → Bool) (path : Str)
    (h : startServer present path = .unix path) :
    ∃ e, daemonStep handle s (.ready c (some (.bytes [x, 10])) w) = .error e ∧ startServer (endServer present path e) path = .occupied path := by
  obtain ⟨e, h1, _⟩ := C59_non_ascii handle s c d hc x hx w
  refine ⟨e, h1, ?_⟩
  have he := ready_interrupt h1
  have hm : inetMatch path = none := by
    cases hm : inetMatch path with
    | none => rfl
    | some y =>
      rw [startServer, hm] at h
      dsimp only at h
      split at h <;> cases h
  rw [startServer, hm]
  dsimp only
  rw [if_pos]
  unfold endServer
  rw [if_pos rfl]
  cases e <;> first | rfl | exact absurd rfl he

/-- A client is connected, and the server uses a file. -/
example : ∃ e, daemonStep (fun (k : Unit) b => (k, b)) ⟨(), fun i => if i = 3 then some {} else none⟩ (.ready 3 (some (.bytes [200, 10])) none) = .error e ∧
    startServer (endServer (fun _ => false) "/run/elfvars.sock".toList e) "/run/elfvars.sock".toList = .occupied "/run/elfvars.sock".toList :=
  C128_restart_counterexample _ _ 3 {} ⟨rfl, rfl⟩ 200 (by decide) none _ _ (by decide +kernel)

end Bean.Props

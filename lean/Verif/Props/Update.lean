import Verif.Lemmas.Update
import Verif.Props.Map
/-
Property theorems C22 to C26, C62 and C63: live update.
All statements about single events also hold for runs that were ended by a fault.
-/
namespace Bean.Props
open Bean Spec

/-! ### Connection between model and specification vocabulary -/

theorem and_single_ne_zero16 (x c : BitVec 16) (k : Nat) (hk : k < 16)
    (hc : ∀ i < 16, c.getLsbD i = true ↔ i = k) : ((x &&& c) != 0) = true ↔ x.getLsbD k = true := by
  rw [bne_iff_ne, ne_eq]
  change ¬ (x &&& c = 0#16) ↔ _
  rw [and_eq_zero_iff]
  constructor
  · intro h
    cases hf : x.getLsbD k with
    | true => rfl
    | false =>
      exfalso
      apply h
      intro i hi
      cases h2 : c.getLsbD i with
      | false => simp
      | true => rw [(hc i hi).mp h2, hf]; simp
  · intro h hall
    have := hall k hk
    rw [h] at this
    exact Bool.noConfusion (this ((hc k hk).mpr rfl))

theorem trampoline_iff (s : Symbol) : s.has SYMBOL_TRAMPOLINE = true ↔ IsTrampoline s :=
  and_single_ne_zero16 _ _ 1 (by omega) (by decide)

theorem cet_iff (s : Symbol) : s.has SYMBOL_USING_CET = true ↔ s.flags.getLsbD 2 = true :=
  and_single_ne_zero16 _ _ 2 (by omega) (by decide)

theorem isFunc_iff (s : Symbol) : isFunc s = true ↔ IsFunction s := by
  simp [isFunc, IsFunction, or_assoc]

theorem redirectOffset_eq (s : Symbol) : redirectOffset s = BitVec.ofNat 64 (endbrSize s) := by
  unfold redirectOffset endbrSize
  by_cases h : s.flags.getLsbD 2 = true
  · rw [if_pos h, if_pos ((cet_iff s).mpr h)]; rfl
  · rw [if_neg h, if_neg (mt (cet_iff s).mp h)]; rfl

theorem redirectOffset_toNat (s : Symbol) : (redirectOffset s).toNat = endbrSize s := by
  rw [redirectOffset_eq]
  unfold endbrSize
  split <;> rfl

theorem process_ok {b : Build} {h : BitVec 64 → BitVec 32} {flags : BitVec 32} {cb : Callbacks} {from_ to : SymTree}
    {fb tb : Addr} {m : List (Addr × Addr)} (hm : map b h from_ to (flags.getLsbD 0) = .ok m) :
    process b h flags cb from_ to fb tb = processWith ⟨b, from_, to, m, fb, tb, UpdateFlags.ofWord flags, cb⟩ := by
  unfold process
  simp only
  rw [show (UpdateFlags.ofWord flags).use_symbol_names = flags.getLsbD 0 from rfl, hm]

theorem process_event {b : Build} {h : BitVec 64 → BitVec 32} {flags : BitVec 32} {cb : Callbacks} {from_ to : SymTree}
    {fb tb : Addr} {m : List (Addr × Addr)} (hm : map b h from_ to (flags.getLsbD 0) = .ok m) {e : Event}
    (he : e ∈ (process b h flags cb from_ to fb tb).1) :
    EventOK ⟨b, from_, to, m, fb, tb, UpdateFlags.ofWord flags, cb⟩ e
      ∧ suppressed ⟨b, from_, to, m, fb, tb, UpdateFlags.ofWord flags, cb⟩ (siteSymbol (siteOf e)) = false := by
  rw [process_ok hm] at he
  exact processWith_ok _ e he

theorem not_suppressed {b : Build} {from_ to : SymTree} {m : List (Addr × Addr)} {fb tb : Addr} {flags : BitVec 32}
    {cb : Callbacks} {s : Symbol} (h : flags.getLsbD 3 = true ∨ ¬ (IsFunction s ∧ IsTrampoline s)) :
    suppressed ⟨b, from_, to, m, fb, tb, UpdateFlags.ofWord flags, cb⟩ s = false := by
  rw [← isFunc_iff, ← trampoline_iff] at h
  unfold suppressed
  change (isFunc s && !flags.getLsbD 3 && s.has SYMBOL_TRAMPOLINE) = false
  cases h1 : isFunc s <;> cases h2 : s.has SYMBOL_TRAMPOLINE <;> cases h3 : flags.getLsbD 3 <;>
    simp_all only [Bool.and_self, Bool.and_true, Bool.and_false, Bool.not_true, Bool.not_false] <;> simp at h

theorem sorted_map_result {b : Build} {h : BitVec 64 → BitVec 32} {this other : SymTree} (ht : Ordered this)
    (ho : Ordered other) {names : Bool} {m : List (Addr × Addr)} (hm : map b h this other names = .ok m) :
    Tree.Sorted m := by
  obtain ⟨st, hg, rfl⟩ := map_ok hm
  exact sorted_cleanup (map_inv ((ordered_iff_sorted _).mp ht) ((ordered_iff_sorted _).mp ho) hg).sorted

theorem find_pair {m : List (Addr × Addr)} {a : Addr} {e : Addr × Addr} (h : Tree.find m a = some e) : (a, e.2) ∈ m := by
  obtain ⟨h1, h2⟩ := Tree.find_mem h
  have : a = e.1 := h2.symm
  rw [this]
  exact h1

/-! ### C22 -/

/-- C22: full redirects are requested only for mapped functions that are no trampolines; the redirect starts after the
`endbr` of the function and leads to the start of the symbol its address is mapped to. -/
theorem C22_redirect_functions (b : Build) (h : BitVec 64 → BitVec 32) (flags : BitVec 32) (cb : Callbacks)
    (from_ to : SymTree) (_hf : Ordered from_) (ht : Ordered to) (fb tb : Addr) (m : List (Addr × Addr))
    (hm : map b h from_ to (flags.getLsbD 0) = .ok m) (s : Symbol) (f t sz : Addr) (a : Bool)
    (he : .redirect (.function s) f t sz a ∈ (process b h flags cb from_ to fb tb).1) :
    s ∈ from_ ∧ IsFunction s ∧ ¬ IsTrampoline s ∧ f = s.address + BitVec.ofNat 64 (endbrSize s) + fb
      ∧ ∃ v y, (s.address, v) ∈ m ∧ Closest to v y ∧ t = y.address + tb := by
  obtain ⟨⟨h1, h2, h3, -, e, y, h5, h6, h7, h8, -⟩, -⟩ := process_event hm he
  refine ⟨h1, (isFunc_iff s).mp h2, ?_, by rw [h7, redirectOffset_eq], e.2, y, find_pair h5,
    (closest_of_floor ((ordered_iff_sorted _).mp ht)).mp h6, h8⟩
  rw [← trampoline_iff, h3]; decide

/-- C22, converse: in a completed run with a REDIRECT callback each mapped function that is no trampoline is
redirected. -/
theorem C22_redirect_complete (b : Build) (h : BitVec 64 → BitVec 32) (flags : BitVec 32) (cb : Callbacks)
    (from_ to : SymTree) (hf : Ordered from_) (ht : Ordered to) (fb tb : Addr) (m : List (Addr × Addr))
    (hm : map b h from_ to (flags.getLsbD 0) = .ok m) (hcb : cb.redirect.isSome = true)
    (hok : (process b h flags cb from_ to fb tb).2 = none) (s : Symbol) (hs : s ∈ from_) (hfun : IsFunction s)
    (htr : ¬ IsTrampoline s) (v : Addr) (hv : (s.address, v) ∈ m) :
    ∃ f t sz a, .redirect (.function s) f t sz a ∈ (process b h flags cb from_ to fb tb).1 := by
  rw [process_ok hm] at hok ⊢
  have htr' : s.has SYMBOL_TRAMPOLINE = false := by rw [← Bool.not_eq_true, trampoline_iff]; exact htr
  obtain ⟨ev, hd, h1, h2⟩ := processWith_fun_run _ hok s hs (by simp [suppressed, htr'])
  have hfind : Tree.find m s.address = some (s.address, v) :=
    (Tree.find_eq_some_iff (sorted_map_result hf ht hm)).mpr ⟨hv, rfl⟩
  obtain ⟨x, y, -, hy, -⟩ := C18_mapped_compatible b h from_ to hf ht _ m hm _ hv
  have hfloor : Tree.floor to v = some y := (closest_of_floor ((ordered_iff_sorted _).mp ht)).mpr hy
  unfold fullRedirect at h1
  simp only [hfind, hfloor, (isFunc_iff s).mpr hfun, htr', Bool.not_false, Bool.and_self, if_true] at h1
  split at h1
  · exact absurd (congrArg Prod.snd h1) (by simp)
  · simp only [Prod.mk.injEq, and_true] at h1
    obtain ⟨g, hg⟩ := Option.isSome_iff_exists.mp hcb
    simp only [callRedirect, hg] at h1
    have := List.append_cancel_left h1
    exact ⟨_, _, _, _, h2 _ (by rw [← this]; exact List.mem_singleton.mpr rfl)⟩

/-! ### C23 -/

/-- C23: the range of a full redirect lies behind the `endbr`, inside of the function and ends before the first
relocated instruction. In a release build the function must not be smaller than its `endbr`. -/
theorem C23_redirect_range (b : Build) (h : BitVec 64 → BitVec 32) (flags : BitVec 32) (cb : Callbacks)
    (from_ to : SymTree) (fb tb : Addr) (m : List (Addr × Addr)) (hm : map b h from_ to (flags.getLsbD 0) = .ok m)
    (s : Symbol) (f t sz : Addr) (a : Bool)
    (he : .redirect (.function s) f t sz a ∈ (process b h flags cb from_ to fb tb).1) (hi : InsnsInside s)
    (hw : NoWrap s) (hsz : b = .debug ∨ endbrSize s ≤ s.size.toNat) :
    endbrSize s + sz.toNat ≤ s.size.toNat
      ∧ ∀ r ∈ s.rels, sz = 0 ∨ (s.address.toNat : Int) + endbrSize s + sz.toNat ≤ insnStart r := by
  obtain ⟨⟨-, -, -, hb, -, -, -, -, -, -, rfl⟩, -⟩ := process_event hm he
  have hlt : endbrSize s ≤ s.size.toNat := by
    rcases hsz with rfl | h
    · have := hb rfl
      rw [BitVec.lt_def, redirectOffset_toNat] at this
      omega
    · exact h
  have hoff := redirectOffset_toNat s
  unfold NoWrap at hw
  unfold redirectSize
  simp only
  cases hr : s.rels with
  | nil =>
    simp only [List.head?_nil]
    refine ⟨?_, by simp⟩
    rw [BitVec.toNat_sub]
    have := s.size.isLt
    omega
  | cons r rs =>
    simp only [List.head?_cons]
    obtain ⟨hin, hord⟩ := hi
    rw [hr] at hin hord
    obtain ⟨h1, h2⟩ := hin r List.mem_cons_self
    unfold insnStart at h1 h2
    have hle : (r.instruction_offset.setWidth 64 : BitVec 64).toNat = r.instruction_offset.toNat := by
      rw [BitVec.toNat_setWidth]; have := r.instruction_offset.isLt; omega
    have hro := r.offset.isLt
    have hrs : (relStart r - s.address).toNat + s.address.toNat + r.instruction_offset.toNat = r.offset.toNat := by
      unfold relStart
      rw [BitVec.toNat_sub, BitVec.toNat_sub, hle]
      omega
    have hmin : ∀ q ∈ r :: rs, insnStart r ≤ insnStart q := by
      intro q hq
      rcases List.mem_cons.mp hq with rfl | hq
      · exact Int.le_refl _
      · exact ((List.pairwise_cons.mp hord).1 q hq).2
    split
    · exact ⟨by simp; omega, fun _ _ => .inl rfl⟩
    · rename_i hgt
      rw [BitVec.le_def] at hgt
      have hsub : (relStart r - s.address - redirectOffset s).toNat
          = (relStart r - s.address).toNat - (redirectOffset s).toNat := by
        rw [BitVec.toNat_sub]
        have := (relStart r - s.address).isLt
        omega
      refine ⟨by omega, fun q hq => .inr ?_⟩
      have := hmin q hq
      unfold insnStart at this ⊢
      omega

/-! ### C24 -/

/-- C24: the filter flags. -/
theorem C24_flags (b : Build) (h : BitVec 64 → BitVec 32) (flags : BitVec 32) (cb : Callbacks)
    (from_ to : SymTree) (ht : Ordered to) (fb tb : Addr) (m : List (Addr × Addr))
    (hm : map b h from_ to (flags.getLsbD 0) = .ok m) (e : Event)
    (he : e ∈ (process b h flags cb from_ to fb tb).1) :
    (∀ s r, siteOf e = .relocation s r → IsChange e →
      (flags.getLsbD 1 = true → ∃ v y, (r.target, v) ∈ m ∧ Closest to v y ∧ y.sec.executable = true)
      ∧ (flags.getLsbD 2 = true → r.instruction_access.getLsbD 2 = true))
    ∧ (flags.getLsbD 3 = false → ¬ (IsFunction (siteSymbol (siteOf e)) ∧ IsTrampoline (siteSymbol (siteOf e))))
    ∧ (∀ s r, siteOf e = .relocation s r → flags.getLsbD 4 = true →
      (∀ f t, e ≠ .skipmsg (.relocation s r) f t .differentOffsetId)
      ∧ ∀ f t sz a, e = .redirect (.relocation s r) f t sz a → ∃ v, (r.target, v) ∈ m ∧ t = v + tb) := by
  have ht' := (ordered_iff_sorted _).mp ht
  obtain ⟨hok, hsup⟩ := process_event hm he
  refine ⟨?_, ?_, ?_⟩
  · intro s r hs hc
    cases e with
    | skipmsg => exact hc.elim
    | redirect site f t sz a =>
      cases hs
      obtain ⟨-, -, -, -, e, y, h1, h2, h3, h4, -⟩ := hok
      exact ⟨fun hx => ⟨e.2, y, find_pair h1, (closest_of_floor ht').mp h2, h3 hx⟩, fun hx => (branch_iff _).mp (h4 hx)⟩
    | relocate site r' t y a =>
      cases hs
      obtain ⟨-, -, -, e, h1, h2, -, -, h3, h4⟩ := hok
      exact ⟨fun hx => ⟨e.2, y, find_pair h1, (closest_of_floor ht').mp h2, h3 hx⟩, fun hx => (branch_iff _).mp (h4 hx)⟩
  · rintro hx ⟨h1, h2⟩
    simp only [suppressed, (isFunc_iff _).mpr h1, (trampoline_iff _).mpr h2, UpdateFlags.ofWord, hx] at hsup
    cases hsup
  · intro s r hs hx
    have hl : isLocalBranch ⟨b, from_, to, m, fb, tb, UpdateFlags.ofWord flags, cb⟩ s r = false := by
      simp [isLocalBranch, UpdateFlags.ofWord, hx]
    constructor
    · rintro f t rfl
      obtain ⟨-, -, hc⟩ := hok
      split at hc
      · exact absurd hc.1 (by decide)
      · rw [hl] at hc; exact absurd hc.2 (by simp)
    · rintro f t sz a rfl
      obtain ⟨-, -, -, -, e, y, h1, -, -, -, h2⟩ := hok
      rcases h2 with ⟨h2, -⟩ | ⟨-, h2, -⟩
      · exact ⟨e.2, find_pair h1, h2⟩
      · rw [hl] at h2; cases h2

/-! ### C25 -/

theorem rels_nodup {s : Symbol} (h : RelsOrdered s) : s.rels.Nodup := by
  refine List.Pairwise.imp ?_ h
  rintro x y hxy rfl
  omega

theorem ordered_nodup {t : SymTree} (h : Ordered t) : t.Nodup := by
  refine List.Pairwise.imp ?_ h
  rintro x y hxy rfl
  omega

/-- C25: the events of one relocation: RELOCATE is called at most once and first, with the mapped address; after an
accepted change or a message nothing follows. -/
theorem C25_relocation_once (b : Build) (h : BitVec 64 → BitVec 32) (flags : BitVec 32) (cb : Callbacks)
    (from_ to : SymTree) (hf : Ordered from_) (ht : Ordered to) (fb tb : Addr) (m : List (Addr × Addr))
    (hm : map b h from_ to (flags.getLsbD 0) = .ok m) (s : Symbol) (hr : RelsOrdered s) (r : Rel) :
    let evs := (process b h flags cb from_ to fb tb).1.filter fun e => decide (siteOf e = .relocation s r)
    RelocateOnlyFirst evs ∧ StopsWhenSettled evs
      ∧ ∀ r' t y a, .relocate (.relocation s r) r' t y a ∈ evs →
        r' = r ∧ ∃ v, (r.target, v) ∈ m ∧ Closest to v y ∧ t = v + tb := by
  simp only
  rw [process_ok hm]
  have hseg := processWith_rel ⟨b, from_, to, m, fb, tb, UpdateFlags.ofWord flags, cb⟩ (ordered_nodup hf) s
    (rels_nodup hr) r
  refine ⟨hseg.relocateFirst, hseg.final, ?_⟩
  intro r' t y a he
  obtain ⟨-, -, h1, e, h2, h3, h4, -⟩ := hseg.ok _ he
  exact ⟨h1, e.2, find_pair h2, (closest_of_floor ((ordered_iff_sorted _).mp ht)).mp h3, h4⟩

/-- C25: in a completed run a relocation without mapping causes exactly the message `no target found`. -/
theorem C25_no_target (b : Build) (h : BitVec 64 → BitVec 32) (flags : BitVec 32) (cb : Callbacks)
    (from_ to : SymTree) (hf : Ordered from_) (fb tb : Addr) (m : List (Addr × Addr))
    (hm : map b h from_ to (flags.getLsbD 0) = .ok m) (hok : (process b h flags cb from_ to fb tb).2 = none)
    (s : Symbol) (hs : s ∈ from_) (hsup : flags.getLsbD 3 = true ∨ ¬ (IsFunction s ∧ IsTrampoline s))
    (hr : RelsOrdered s) (r : Rel) (hrs : r ∈ s.rels) (hno : ∀ v, (r.target, v) ∉ m) :
    (process b h flags cb from_ to fb tb).1.filter (fun e => decide (siteOf e = .relocation s r))
      = if cb.skipmsg then [.skipmsg (.relocation s r) (r.offset + fb) 0 .noTarget] else [] := by
  rw [process_ok hm] at hok ⊢
  obtain ⟨ev, same, hp⟩ := processWith_rel_run _ (ordered_nodup hf) hok s hs (by
    exact not_suppressed hsup) (rels_nodup hr) r hrs
  have hnone : Tree.find m r.target = none := by
    rw [Tree.find_eq_none_iff]
    rintro ⟨a, v⟩ hv rfl
    exact hno v hv
  unfold processRel at hp
  simp only [hnone, Prod.mk.injEq, and_true] at hp
  unfold callSkip at hp
  split at hp
  · rename_i hx
    rw [if_pos hx]
    exact (List.append_cancel_left hp).symm
  · rename_i hx
    rw [if_neg hx]
    exact List.append_cancel_left (hp.symm.trans (List.append_nil ev).symm)

/-- C25: with a SKIPMSG and a REDIRECT callback no relocation is dropped silently, except for those filtered by
flags. -/
theorem C25_no_silent_drop (b : Build) (h : BitVec 64 → BitVec 32) (flags : BitVec 32) (cb : Callbacks)
    (from_ to : SymTree) (hf : Ordered from_) (ht : Ordered to) (fb tb : Addr) (m : List (Addr × Addr))
    (hm : map b h from_ to (flags.getLsbD 0) = .ok m) (hok : (process b h flags cb from_ to fb tb).2 = none)
    (hcb : cb.redirect.isSome = true) (hsk : cb.skipmsg = true)
    (s : Symbol) (hs : s ∈ from_) (hsup : flags.getLsbD 3 = true ∨ ¬ (IsFunction s ∧ IsTrampoline s))
    (hr : RelsOrdered s) (r : Rel) (hrs : r ∈ s.rels) :
    (∃ e ∈ (process b h flags cb from_ to fb tb).1, siteOf e = .relocation s r)
      ∨ (flags.getLsbD 1 = true ∧ ∃ v y, (r.target, v) ∈ m ∧ Closest to v y ∧ y.sec.executable = false)
      ∨ (flags.getLsbD 2 = true ∧ r.instruction_access.getLsbD 2 = false) := by
  by_cases hev : ∃ e ∈ (process b h flags cb from_ to fb tb).1, siteOf e = .relocation s r
  · exact .inl hev
  right
  rw [process_ok hm] at hok hev
  obtain ⟨ev, same, hp⟩ := processWith_rel_run _ (ordered_nodup hf) hok s hs (by
    exact not_suppressed hsup) (rels_nodup hr) r hrs
  have hfil : (processWith ⟨b, from_, to, m, fb, tb, UpdateFlags.ofWord flags, cb⟩).1.filter
      (fun e => decide (siteOf e = .relocation s r)) = [] := by
    rw [List.filter_eq_nil_iff]
    intro e he hd
    exact hev ⟨e, he, of_decide_eq_true hd⟩
  rw [hfil, List.append_nil] at hp
  unfold processRel at hp
  simp only at hp
  split at hp
  · have := congrArg (fun p : Trace => p.1.length) hp
    simp only at this
    rw [callSkip_length hsk] at this
    omega
  · rename_i e hfe
    split at hp
    · cases hp
    · rename_i y hy
      have hy' : Tree.floor to e.2 = some y := by
        unfold mderef at hy
        cases hfl : Tree.floor to e.2 with
        | none => rw [hfl] at hy; cases b <;> cases hy
        | some y' => rw [hfl] at hy; simp at hy; rw [hy]
      split at hp
      · rename_i hx
        simp only [UpdateFlags.ofWord, Bool.and_eq_true, Bool.not_eq_true'] at hx
        exact .inl ⟨hx.1, e.2, y, find_pair hfe, (closest_of_floor ((ordered_iff_sorted _).mp ht)).mp hy', hx.2⟩
      · split at hp
        · rename_i hx
          simp only [UpdateFlags.ofWord, Bool.and_eq_true, Bool.not_eq_true'] at hx
          refine .inr ⟨hx.1, ?_⟩
          rw [← Bool.not_eq_true, ← branch_iff, hx.2]; decide
        · exfalso
          split at hp
          · have := congrArg (fun p : Trace => p.1.length) hp
            have h2 := localBranch_length (c := ⟨b, from_, to, m, fb, tb, UpdateFlags.ofWord flags, cb⟩) hcb hsk s r e.2 y ev
            simp only at this
            omega
          · split at hp
            · have hrel' := callRelocate_length (c := ⟨b, from_, to, m, fb, tb, UpdateFlags.ofWord flags, cb⟩)
                (.relocation s r) r (e.2 + tb) y ev
              split at hp
              · rename_i hc
                have := congrArg (fun p : Trace => p.1.length) hp
                have h2 := hrel'.2 hc
                simp only at this
                omega
              · have := congrArg (fun p : Trace => p.1.length) hp
                simp only at this
                rw [callRedirect_length hcb] at this
                omega
            · have := congrArg (fun p : Trace => p.1.length) hp
              simp only at this
              rw [callSkip_length hsk] at this
              omega

/-! ### C26 -/

/-- C26: other load addresses shift all events, nothing else. -/
theorem C26_shift (b : Build) (h : BitVec 64 → BitVec 32) (flags : BitVec 32) (cb cb' : Callbacks) (from_ to : SymTree)
    (fb tb d e : Addr) (hcb : ShiftedCallbacks d e cb cb') :
    process b h flags cb' from_ to (fb + d) (tb + e)
      = (((process b h flags cb from_ to fb tb).1.map (shiftEvent d e)), (process b h flags cb from_ to fb tb).2) := by
  unfold process
  simp only
  split
  · rfl
  · exact processWith_shift ⟨rfl, rfl, rfl, rfl, rfl, rfl, rfl, hcb⟩

/-! ### C62 -/

/-- C62: no fault occurs if functions are larger than their `endbr`. -/
theorem C62_no_fault (b : Build) (h : BitVec 64 → BitVec 32) (flags : BitVec 32) (cb : Callbacks) (from_ to : SymTree)
    (hf : Ordered from_) (ht : Ordered to) (fb tb : Addr) (m : List (Addr × Addr))
    (hm : map b h from_ to (flags.getLsbD 0) = .ok m)
    (hsize : ∀ s ∈ from_, IsFunction s → ¬ IsTrampoline s → endbrSize s < s.size.toNat) :
    (process b h flags cb from_ to fb tb).2 = none := by
  rw [process_ok hm]
  refine processWith_nofault _ ?_ ?_
  · intro s hs h1 h2
    rw [BitVec.lt_def, redirectOffset_toNat]
    exact hsize s hs ((isFunc_iff s).mp h1) (by rw [← trampoline_iff, h2]; decide)
  · intro e he
    obtain ⟨x, y, -, hy, -⟩ := C18_mapped_compatible b h from_ to hf ht _ m hm e he
    exact ⟨y, (closest_of_floor ((ordered_iff_sorted _).mp ht)).mpr hy⟩

/-! ### C63 -/

theorem sameOffsetId_iff {s y : Symbol} {o o' : Addr} : sameOffsetId s y o o' ↔ SameOffsetId s y o o' := by
  unfold sameOffsetId SameOffsetId HMap.find
  constructor
  · rintro ⟨h1, h2⟩
    obtain ⟨v, hv⟩ := Option.isSome_iff_exists.mp h1
    exact ⟨v, hv, by rw [← h2, hv]⟩
  · rintro ⟨v, h1, h2⟩
    rw [h1, h2]; simp

theorem isLocalBranch_iff {c : Ctx} {s : Symbol} {r : Rel} :
    isLocalBranch c s r = true ↔ LocalBranch c.flags.ignore_local_rels s r := by
  unfold isLocalBranch LocalBranch
  rw [Bool.and_eq_true, Bool.and_eq_true, Bool.and_eq_true, branch_iff, local_iff, isFunc_iff]
  simp [and_assoc]

theorem sameCode_iff {c : Ctx} (hm : Tree.Sorted c.mapping) (ht : Tree.Sorted c.to) {s : Symbol} :
    SameCode c s ↔ SameCounterpart c.mapping c.to s := by
  constructor
  · rintro ⟨e, y, h1, h2, h3⟩
    exact ⟨e.2, y, find_pair h1, (closest_of_floor ht).mp h2, h3⟩
  · rintro ⟨v, y, h1, h2, h3⟩
    exact ⟨(s.address, v), y, (Tree.find_eq_some_iff hm).mpr ⟨h1, rfl⟩, (closest_of_floor ht).mpr h2, h3⟩

theorem targetReason {c : Ctx} (hm : Tree.Sorted c.mapping) (ht : Tree.Sorted c.to) {s y : Symbol} {r : Rel} {v : Addr}
    (h : TargetReason c s r v y) :
    (LocalBranch c.flags.ignore_local_rels s r ∧ SameOffsetId s y (r.target - s.address) (v - y.address))
      ∨ (¬ LocalBranch c.flags.ignore_local_rels s r ∧ SameCounterpart c.mapping c.to s) := by
  rcases h with ⟨h1, h2⟩ | ⟨h1, h2⟩
  · exact .inl ⟨isLocalBranch_iff.mp h1, sameOffsetId_iff.mp h2⟩
  · exact .inr ⟨by rw [← isLocalBranch_iff, h1]; decide, (sameCode_iff hm ht).mp h2⟩

/-- C63: a relocation is changed only if the surrounding code has a counterpart with the same internal identity, or,
for branches inside of a function, if the code at the target or the branch has the same offset identity. A redirect
starts at the relocated instruction. -/
theorem C63_change_reason (b : Build) (h : BitVec 64 → BitVec 32) (flags : BitVec 32) (cb : Callbacks)
    (from_ to : SymTree) (hf : Ordered from_) (ht : Ordered to) (fb tb : Addr) (m : List (Addr × Addr))
    (hm : map b h from_ to (flags.getLsbD 0) = .ok m) (e : Event)
    (he : e ∈ (process b h flags cb from_ to fb tb).1) (hc : IsChange e) (s : Symbol) (r : Rel)
    (hs : siteOf e = .relocation s r) :
    s ∈ from_ ∧ r ∈ s.rels ∧ ChangeReason (flags.getLsbD 4) m to tb s r e
      ∧ ∀ f t sz a, e = .redirect (.relocation s r) f t sz a → f = r.offset - r.instruction_offset.setWidth 64 + fb := by
  have ht' := (ordered_iff_sorted _).mp ht
  have hm' := sorted_map_result hf ht hm
  obtain ⟨hok, -⟩ := process_event hm he
  cases e with
  | skipmsg => exact hc.elim
  | redirect site f t sz a =>
    cases hs
    obtain ⟨h1, h2, h3, -, e, y, h5, h6, -, -, h7⟩ := hok
    refine ⟨h1, h2, ⟨e.2, y, find_pair h5, (closest_of_floor ht').mp h6, ?_⟩, by rintro _ _ _ _ ⟨⟩; exact h3⟩
    rcases h7 with ⟨h7, h8, -⟩ | ⟨h7, h8, h9⟩
    · exact .inl ⟨h7, targetReason hm' ht' h8⟩
    · exact .inr ⟨id, isLocalBranch_iff.mp h8, h7, sameOffsetId_iff.mp h9⟩
  | relocate site r' t y a =>
    cases hs
    obtain ⟨h1, h2, -, e, h5, h6, h7, h8, -, -⟩ := hok
    exact ⟨h1, h2, ⟨e.2, y, find_pair h5, (closest_of_floor ht').mp h6, .inl ⟨h7, targetReason hm' ht' h8⟩⟩, by rintro _ _ _ _ ⟨⟩⟩

/-- C63, converse for messages: `different internal ID` is given only if the code has no counterpart with the same
internal identity, `different offset ID` only for branches inside of a function. -/
theorem C63_message_reason (b : Build) (h : BitVec 64 → BitVec 32) (flags : BitVec 32) (cb : Callbacks)
    (from_ to : SymTree) (hf : Ordered from_) (ht : Ordered to) (fb tb : Addr) (m : List (Addr × Addr))
    (hm : map b h from_ to (flags.getLsbD 0) = .ok m) (s : Symbol) (r : Rel) (f t : Addr) (reason : Reason)
    (he : .skipmsg (.relocation s r) f t reason ∈ (process b h flags cb from_ to fb tb).1) :
    match reason with
    | .noTarget => ∀ v, (r.target, v) ∉ m
    | .differentOffsetId => LocalBranch (flags.getLsbD 4) s r ∧ ∃ v, (r.target, v) ∈ m
    | .differentInternalId => ¬ LocalBranch (flags.getLsbD 4) s r ∧ ¬ SameCounterpart m to s ∧ ∃ v, (r.target, v) ∈ m := by
  have ht' := (ordered_iff_sorted _).mp ht
  have hm' := sorted_map_result hf ht hm
  obtain ⟨⟨h1, h2, h3⟩, -⟩ := process_event hm he
  split at h3
  · rename_i hnone
    obtain ⟨rfl, -⟩ := h3
    intro v hv
    exact Tree.find_eq_none_iff.mp hnone _ hv rfl
  · rename_i e hsome
    obtain ⟨-, h3⟩ := h3
    cases reason with
    | noTarget => exact h3.elim
    | differentOffsetId => exact ⟨isLocalBranch_iff.mp h3, e.2, find_pair hsome⟩
    | differentInternalId =>
      exact ⟨fun hl => by
          have := (isLocalBranch_iff (c := ⟨b, from_, to, m, fb, tb, UpdateFlags.ofWord flags, cb⟩)).mpr hl
          rw [h3.1] at this
          exact Bool.noConfusion this,
        fun hl => h3.2 ((sameCode_iff (c := ⟨b, from_, to, m, fb, tb, UpdateFlags.ofWord flags, cb⟩) hm' ht').mpr hl), e.2, find_pair hsome⟩

/-! ### C64 -/

theorem conditional_iff (r : Rel) :
    ((r.instruction_access &&& ACCESSFLAG_CONDITIONAL) == 0) = true ↔ r.instruction_access.getLsbD 3 = false := by
  have h := and_single_ne_zero r.instruction_access 3 (by omega) ACCESSFLAG_CONDITIONAL (by decide)
  rw [bne_iff_ne, ne_eq] at h
  rw [beq_iff_eq]
  cases hb : r.instruction_access.getLsbD 3 with
  | false =>
    simp only [iff_true]
    exact Classical.not_not.mp fun hn => by rw [h.mp hn] at hb; cases hb
  | true =>
    simp only [Bool.true_eq_false, iff_false]
    exact h.mpr hb

/-- C64, for branches inside of a function: a redirect placed at a conditional branch leads to the corresponding branch
instruction of the new version, never to the target of the branch.
Missing for C64: other relocations, for which it is not true. -/
theorem C64_conditional_partial (b : Build) (h : BitVec 64 → BitVec 32) (flags : BitVec 32) (cb : Callbacks)
    (from_ to : SymTree) (ht : Ordered to) (fb tb : Addr) (m : List (Addr × Addr))
    (hm : map b h from_ to (flags.getLsbD 0) = .ok m) (s : Symbol) (r : Rel) (f t sz : Addr) (a : Bool)
    (he : .redirect (.relocation s r) f t sz a ∈ (process b h flags cb from_ to fb tb).1)
    (hl : LocalBranch (flags.getLsbD 4) s r) (hc : r.instruction_access.getLsbD 3 = true) :
    ∃ v y, (r.target, v) ∈ m ∧ Closest to v y ∧
      let o := r.offset - r.instruction_offset.setWidth 64 - s.address
      t = y.address + o + tb ∧ SameOffsetId s y o o := by
  have ht' := (ordered_iff_sorted _).mp ht
  obtain ⟨hok, -⟩ := process_event hm he
  obtain ⟨h1, h2, h3, -, e, y, h5, h6, -, -, h7⟩ := hok
  have hl' := (isLocalBranch_iff (c := ⟨b, from_, to, m, fb, tb, UpdateFlags.ofWord flags, cb⟩)).mpr hl
  rcases h7 with ⟨-, -, h8⟩ | ⟨h7, -, h9⟩
  · rw [(conditional_iff r).mp (h8 hl')] at hc
    cases hc
  · exact ⟨e.2, y, find_pair h5, (closest_of_floor ht').mp h6, h7, sameOffsetId_iff.mp h9⟩

/-! ### Examples: the hypotheses of the theorems are satisfiable -/

/-- A function with `endbr` and a call, and the called function. -/
def exFrom : SymTree :=
  [{ address := 0x10, size := 0x20, type := .func, flags := 4, id := { internal := 1 }, sec := { executable := true },
     rels := [{ offset := 0x1c, type := 2, target := 0x40, instruction_offset := 2, instruction_access := 4 }] },
   { address := 0x40, size := 8, type := .func, id := { internal := 2 }, sec := { executable := true } }]

/-- The same functions at other addresses. -/
def exTo : SymTree :=
  [{ address := 0x50, size := 0x20, type := .func, flags := 4, id := { internal := 1 }, sec := { executable := true },
     rels := [{ offset := 0x5c, type := 2, target := 0x80, instruction_offset := 2, instruction_access := 4 }] },
   { address := 0x80, size := 8, type := .func, id := { internal := 2 }, sec := { executable := true } }]

/-- Callbacks: RELOCATE refuses, REDIRECT accepts. -/
def exCb : Callbacks := { redirect := some fun _ _ _ _ => true, relocate := some fun _ _ _ _ => false, skipmsg := true }

theorem exMap (b : Build) (h : BitVec 64 → BitVec 32) : map b h exFrom exTo false = .ok [(0x10, 0x50), (0x40, 0x80)] := by
  rw [map_congr b h (fun _ => 0)]
  cases b <;> rfl

example (b : Build) (h : BitVec 64 → BitVec 32) :
    Ordered exFrom ∧ Ordered exTo ∧ map b h exFrom exTo ((0 : BitVec 32).getLsbD 0) = .ok [(0x10, 0x50), (0x40, 0x80)]
      ∧ (process b h 0 exCb exFrom exTo 0x1000 0x2000).2 = none
      ∧ (∃ s ∈ exFrom, ∃ a, .redirect (.function s) 0x1014 0x2050 6 a ∈ (process b h 0 exCb exFrom exTo 0x1000 0x2000).1)
      ∧ (∃ s ∈ exFrom, ∃ r ∈ s.rels, .redirect (.relocation s r) 0x101a 0x2080 0 true
        ∈ (process b h 0 exCb exFrom exTo 0x1000 0x2000).1) := by
  rw [process_ok (flags := 0) (m := [(0x10, 0x50), (0x40, 0x80)]) (exMap b h)]
  refine ⟨by decide, by decide, exMap b h, by cases b <;> rfl, ⟨_, List.mem_cons_self, true, ?_⟩,
    ⟨_, List.mem_cons_self, _, List.mem_cons_self, ?_⟩⟩
  · cases b <;> decide
  · cases b <;> decide

example : ∀ s ∈ exFrom, IsFunction s → ¬ IsTrampoline s → endbrSize s < s.size.toNat := by
  have : ∀ s ∈ exFrom, endbrSize s < s.size.toNat := by unfold endbrSize; decide
  exact fun s hs _ _ => this s hs

example : ∃ s ∈ exFrom, InsnsInside s ∧ NoWrap s ∧ RelsOrdered s ∧ s.rels ≠ [] :=
  ⟨_, List.mem_cons_self, by unfold InsnsInside insnStart; decide, by unfold NoWrap; decide,
    by unfold RelsOrdered; decide, by decide⟩

/-- Callbacks that accept everything can be shifted, as well as callbacks that depend on the addresses. -/
example (d e : Addr) : ShiftedCallbacks d e
    { redirect := some fun _ f _ _ => f == 0x1014, relocate := none, skipmsg := true }
    { redirect := some fun _ f _ _ => f == 0x1014 + d, relocate := none, skipmsg := true } := by
  refine ⟨?_, trivial, rfl⟩
  intro ev a t s
  rw [Bool.eq_iff_iff]
  simp

/-- A function with a conditional branch to itself, whose offset identities are known. -/
def loopFrom : SymTree :=
  [{ address := 0x10, size := 8, type := .func, id := { internal := 1 }, sec := { executable := true },
     offset_ids := [(4, 7)],
     rels := [{ offset := 0x15, type := 15, target := 0x10, instruction_offset := 1, instruction_access := 28 }] }]

example (b : Build) (h : BitVec 64 → BitVec 32) : ∃ s ∈ loopFrom, ∃ r ∈ s.rels, LocalBranch false s r ∧
    r.instruction_access.getLsbD 3 = true ∧
    .redirect (.relocation s r) 0x14 0x14 0 true ∈ (process b h 0 exCb loopFrom loopFrom 0 0).1 := by
  have hm : map b h loopFrom loopFrom ((0 : BitVec 32).getLsbD 0) = .ok [(0x10, 0x10)] := by
    rw [map_congr b h (fun _ => 0)]; cases b <;> rfl
  rw [process_ok hm]
  exact ⟨_, List.mem_cons_self, _, List.mem_cons_self, by unfold LocalBranch IsFunction; decide, by decide,
    by cases b <;> decide⟩

/-- A function with a conditional branch to another function (a conditional tail call) and a reference to a variable. -/
def condFrom : SymTree :=
  [{ address := 0x10, size := 0x20, type := .func, id := { internal := 1 }, sec := { executable := true },
     rels := [{ offset := 0x16, type := 2, target := 0x40, instruction_offset := 2, instruction_access := 12 },
              { offset := 0x1d, type := 2, target := 0x80, instruction_offset := 3, instruction_access := 1 }] },
   { address := 0x40, size := 8, type := .func, id := { internal := 2 }, sec := { executable := true } },
   { address := 0x80, size := 8, type := .object, id := { internal := 3 }, sec := { writeable := true } }]

/-- C64 (not true of the code): if `RELOCATE` refuses, a conditional branch to another function is redirected to its
target as if it was always taken, and an instruction that reads a variable is redirected to the variable. -/
theorem C64_counterexample (b : Build) (h : BitVec 64 → BitVec 32) :
    ∃ s ∈ condFrom, ∃ r₁ ∈ s.rels, ∃ r₂ ∈ s.rels, r₁.instruction_access.getLsbD 3 = true ∧
      r₂.instruction_access.getLsbD 2 = false ∧
      .redirect (.relocation s r₁) 0x14 0x40 0 true ∈ (process b h 0 exCb condFrom condFrom 0 0).1 ∧
      .redirect (.relocation s r₂) 0x1a 0x80 0 true ∈ (process b h 0 exCb condFrom condFrom 0 0).1 := by
  have hm : map b h condFrom condFrom ((0 : BitVec 32).getLsbD 0) = .ok [(0x10, 0x10), (0x40, 0x40), (0x80, 0x80)] := by
    rw [map_congr b h (fun _ => 0)]; cases b <;> rfl
  rw [process_ok hm]
  refine ⟨_, List.mem_cons_self, _, List.mem_cons_self, _, List.mem_cons_of_mem _ List.mem_cons_self, by decide,
    by decide, ?_, ?_⟩
  · cases b <;> decide
  · cases b <;> decide

/-! ### The hypotheses of C23 and C62 are needed -/

/-- A function whose first relocation has an instruction offset that leads before the function. -/
def badFrom : SymTree :=
  [{ address := 0x10, size := 8, type := .func, id := { internal := 1 }, sec := { executable := true },
     rels := [{ offset := 0x12, type := 2, target := 0x10, instruction_offset := 15 }] }]

/-- C23 is false without the hypothesis on the relocations: a wrong instruction offset makes the range exceed the
function. Instruction offsets of relocations read from a file are never initialised (C47). -/
theorem C23_offset_counterexample (b : Build) (h : BitVec 64 → BitVec 32) :
    ∃ s ∈ badFrom, NoWrap s ∧ ∃ f t sz a, .redirect (.function s) f t sz a ∈ (process b h 0 exCb badFrom badFrom 0 0).1
      ∧ s.size.toNat < sz.toNat := by
  have hm : map b h badFrom badFrom ((0 : BitVec 32).getLsbD 0) = .ok [(0x10, 0x10)] := by
    rw [map_congr b h (fun _ => 0)]; cases b <;> rfl
  rw [process_ok hm]
  exact ⟨_, List.mem_cons_self, by unfold NoWrap; decide, 0x10, 0x10, 0xfffffffffffffff3, true, by cases b <;> decide,
    by decide⟩

/-- A function that consists of an `endbr` only. -/
def tinyFrom : SymTree :=
  [{ address := 0x10, size := 4, type := .func, flags := 4, id := { internal := 1 }, sec := { executable := true } }]

/-- C62 is false without the hypothesis on sizes: the update of a function that consists of an `endbr` fails in a build
with assertions. -/
theorem C62_tiny_counterexample (h : BitVec 64 → BitVec 32) :
    map .debug h tinyFrom tinyFrom false = .ok [(0x10, 0x10)]
      ∧ (process .debug h 0 exCb tinyFrom tinyFrom 0 0).2 = some .assert := by
  have hm : map .debug h tinyFrom tinyFrom ((0 : BitVec 32).getLsbD 0) = .ok [(0x10, 0x10)] := by
    rw [map_congr .debug h (fun _ => 0)]; rfl
  refine ⟨hm, ?_⟩
  rw [process_ok hm]
  rfl

end Bean.Props

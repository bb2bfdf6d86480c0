import Verif.Spec.Tools
import Verif.Props.Diff
/-
Output of the programs bean-diff (C51) and bean-diffstat (C54).
-/
namespace Bean.Props
open Bean Bean.Spec

/-! ### C51 -/

theorem listing_removed (d new removed : SymTree) :
    ((listing d new removed).filter (fun x => x.1 == .removed)).map (·.2) = removed := by
  induction new generalizing removed with
  | nil => simp [listing, List.filter_map, Function.comp_def]
  | cons n new ih =>
    rw [listing, List.filter_append, List.map_append, List.filter_cons]
    have : ((if (Tree.find d n.address).isSome then Mark.added else Mark.kept, n).1 == Mark.removed) = false := by
      split <;> rfl
    rw [if_neg (by rw [this]; decide), ih]
    have hf : ((removed.takeWhile (fun r => decide (r.address ≤ n.address))).map (fun r => (Mark.removed, r))).filter
        (fun x => x.1 == .removed) = (removed.takeWhile (fun r => decide (r.address ≤ n.address))).map
        (fun r => (Mark.removed, r)) := by
      rw [List.filter_eq_self]
      intro x hx
      obtain ⟨r, -, rfl⟩ := List.mem_map.mp hx
      rfl
    rw [hf, List.map_map]
    exact (congrArg (· ++ _) (List.map_id _)).trans (List.takeWhile_append_dropWhile)

theorem listing_new (d new removed : SymTree) :
    ((listing d new removed).filter (fun x => x.1 != .removed)).map (·.2) = new := by
  induction new generalizing removed with
  | nil => simp [listing, List.filter_map, Function.comp_def]
  | cons n new ih =>
    rw [listing, List.filter_append, List.map_append, List.filter_cons]
    have : ((if (Tree.find d n.address).isSome then Mark.added else Mark.kept, n).1 != Mark.removed) = true := by
      split <;> rfl
    rw [if_pos this, List.map_cons, ih]
    simp [List.filter_map, Function.comp_def]

theorem listing_mark (d new removed : SymTree) : ∀ x ∈ listing d new removed, x.1 ≠ .removed →
    (x.1 = .added ↔ (Tree.find d x.2.address).isSome = true) := by
  induction new generalizing removed with
  | nil =>
    intro x hx hm
    obtain ⟨r, -, rfl⟩ := List.mem_map.mp hx
    exact absurd rfl hm
  | cons n new ih =>
    intro x hx hm
    rw [listing] at hx
    rcases List.mem_append.mp hx with hx | hx
    · obtain ⟨r, -, rfl⟩ := List.mem_map.mp hx
      exact absurd rfl hm
    rcases List.mem_cons.mp hx with rfl | hx
    · change (if _ then _ else _) = _ ↔ _
      split
      · next h => simp [h]
      · next h => simp [h]
    · exact ih _ x hx hm

theorem listing_mem (d new removed : SymTree) : ∀ x ∈ listing d new removed, x.2 ∈ new ∨ x.2 ∈ removed := by
  induction new generalizing removed with
  | nil =>
    intro x hx
    obtain ⟨r, hr, rfl⟩ := List.mem_map.mp hx
    exact .inr hr
  | cons n new ih =>
    intro x hx
    rw [listing] at hx
    rcases List.mem_append.mp hx with hx | hx
    · obtain ⟨r, hr, rfl⟩ := List.mem_map.mp hx
      exact .inr ((List.takeWhile_subset _) hr)
    rcases List.mem_cons.mp hx with rfl | hx
    · exact .inl List.mem_cons_self
    · rcases ih _ x hx with h | h
      · exact .inl (List.mem_cons_of_mem _ h)
      · exact .inr ((List.dropWhile_sublist _).subset h)

theorem ordered_dropWhile {p : Symbol → Bool} {l : SymTree} (h : Ordered l) : Ordered (l.dropWhile p) :=
  List.Pairwise.sublist (List.dropWhile_sublist _) h

theorem dropWhile_above {n : Symbol} {l : SymTree} (h : Ordered l) :
    ∀ r ∈ l.dropWhile (fun r => decide (r.address ≤ n.address)), n.address.toNat < r.address.toNat := by
  induction l with
  | nil => simp
  | cons a l ih =>
    rw [List.dropWhile_cons]
    split
    · exact ih (List.pairwise_cons.mp h).2
    · next hn =>
      intro r hr
      have hn : ¬ a.address ≤ n.address := by simpa using hn
      rw [BitVec.le_def] at hn
      rcases List.mem_cons.mp hr with rfl | hr
      · omega
      · have := (List.pairwise_cons.mp h).1 r hr
        omega

theorem listing_sorted (d new removed : SymTree) (hn : Ordered new) (hr : Ordered removed) :
    (listing d new removed).Pairwise (fun x y => x.2.address.toNat ≤ y.2.address.toNat) := by
  induction new generalizing removed with
  | nil =>
    rw [listing, List.pairwise_map]
    exact hr.imp (fun h => Nat.le_of_lt h)
  | cons n new ih =>
    have hn' := List.pairwise_cons.mp hn
    have hd := dropWhile_above (n := n) hr
    have ht : ∀ r ∈ removed.takeWhile (fun r => decide (r.address ≤ n.address)), r.address.toNat ≤ n.address.toNat := by
      intro r h
      have := List.all_takeWhile (l := removed) (p := fun r => decide (r.address ≤ n.address))
      have := List.all_eq_true.mp this r h
      simpa [BitVec.le_def] using this
    have hl : ∀ x ∈ listing d new (removed.dropWhile (fun r => decide (r.address ≤ n.address))),
        n.address.toNat ≤ x.2.address.toNat := by
      intro x hx
      rcases listing_mem _ _ _ x hx with h | h
      · exact Nat.le_of_lt (hn'.1 _ h)
      · exact Nat.le_of_lt (hd _ h)
    rw [listing, List.pairwise_append]
    refine ⟨?_, ?_, ?_⟩
    · rw [List.pairwise_map]
      exact (List.Pairwise.sublist (List.takeWhile_sublist _) hr).imp (fun h => Nat.le_of_lt h)
    · exact List.pairwise_cons.mpr ⟨hl, ih _ hn'.2 (ordered_dropWhile hr)⟩
    · intro x hx y hy
      obtain ⟨r, hr', rfl⟩ := List.mem_map.mp hx
      rcases List.mem_cons.mp hy with rfl | hy
      · exact ht r hr'
      · exact Nat.le_trans (ht r hr') (hl y hy)

/-- C51: the listing of bean-diff shows the report about the old file (marked as removed) and all symbols of the new file, each
exactly once and in address order; a symbol of the new file is marked as added iff it is part of the report about the new
file. All modes, with and without dependencies. -/
theorem C51_listing (b : Build) (h : BitVec 64 → BitVec 32) (old new : SymTree) (deps : Bool) (mode : Nat)
    (hn : Ordered new) (lines : List (Mark × Symbol))
    (hr : diffTool b h old new deps mode = .ok lines) :
    ∃ added removed, diff b h new old deps mode = .ok added ∧ diff b h old new deps mode = .ok removed
      ∧ (lines.filter (fun x => x.1 == .removed)).map (·.2) = removed
      ∧ (lines.filter (fun x => x.1 != .removed)).map (·.2) = new
      ∧ (∀ x ∈ lines, x.1 ≠ .removed → (x.1 = .added ↔ x.2 ∈ added))
      ∧ (∀ s ∈ added, (Mark.added, s) ∈ lines)
      ∧ lines.Pairwise (fun x y => x.2.address.toNat ≤ y.2.address.toNat) := by
  unfold diffTool at hr
  cases h1 : diff b h new old deps mode with
  | error e => rw [h1] at hr; cases hr
  | ok added =>
    cases h2 : diff b h old new deps mode with
    | error e => rw [h1, h2] at hr; cases hr
    | ok removed =>
      rw [h1, h2] at hr
      have e : listing added new removed = lines := Except.ok.inj hr
      subst e
      have ha := C07_sized_only b h new old deps mode added h1
      have hm := C07_sized_only b h old new deps mode removed h2
      have key : ∀ s ∈ new, (Tree.find added s.address).isSome = true ↔ s ∈ added := by
        intro s hs
        constructor
        · intro hf
          obtain ⟨q, hq⟩ := Option.isSome_iff_exists.mp hf
          obtain ⟨hq, hk⟩ := Tree.find_mem hq
          have : q = s := ((ordered_iff_sorted new).mp hn).inj (ha.2 q hq).1 hs hk
          rw [← this]; exact hq
        · intro hf
          have := (Tree.find_eq_some_iff ((ordered_iff_sorted added).mp ha.1) (k := s.address) (s := s)).mpr ⟨hf, rfl⟩
          rw [this]; rfl
      have hnew := listing_new added new removed
      refine ⟨added, removed, rfl, rfl, listing_removed _ _ _, hnew, ?_, ?_, listing_sorted _ _ _ hn hm.1⟩
      · intro x hx hne
        have hxn : x.2 ∈ new := by
          rw [← hnew]
          exact List.mem_map.mpr ⟨x, List.mem_filter.mpr ⟨hx, by simpa using hne⟩, rfl⟩
        rw [listing_mark _ _ _ x hx hne, key _ hxn]
      · intro s hs
        have hsn := (ha.2 s hs).1
        have hsn' := hsn
        rw [← hnew] at hsn'
        obtain ⟨x, hx, rfl⟩ := List.mem_map.mp hsn'
        obtain ⟨hx, hne⟩ := List.mem_filter.mp hx
        have hne : x.1 ≠ .removed := by simpa using hne
        have : x.1 = .added := (listing_mark _ _ _ x hx hne).mpr ((key _ hsn).mpr hs)
        rw [← this]; exact hx

/-- a function that was changed and moved, next to an unchanged one -/
example (h : BitVec 64 → BitVec 32) : ∃ old new : SymTree, Ordered new ∧ diffTool .debug h old new false 0 = .ok
    [(.removed, { address := 8, size := 4, id := { internal := 1 } }), (.kept, { address := 16, size := 4, id := { internal := 3 } }),
     (.added, { address := 32, size := 4, id := { internal := 2 } })] :=
  ⟨[{ address := 8, size := 4, id := { internal := 1 } }, { address := 16, size := 4, id := { internal := 3 } }],
   [{ address := 16, size := 4, id := { internal := 3 } }, { address := 32, size := 4, id := { internal := 2 } }],
   by decide, by
     have e1 : diff .debug h [{ address := 16, size := 4, id := { internal := 3 } },
         { address := 32, size := 4, id := { internal := 2 } }] [{ address := 8, size := 4, id := { internal := 1 } },
         { address := 16, size := 4, id := { internal := 3 } }] false 0 =
         .ok [{ address := 32, size := 4, id := { internal := 2 } }] := by
       rw [(C16_hash_irrelevant .debug h (fun _ => 0) _ _ _ _).1]; rfl
     have e2 : diff .debug h [{ address := 8, size := 4, id := { internal := 1 } },
         { address := 16, size := 4, id := { internal := 3 } }] [{ address := 16, size := 4, id := { internal := 3 } },
         { address := 32, size := 4, id := { internal := 2 } }] false 0 =
         .ok [{ address := 8, size := 4, id := { internal := 1 } }] := by
       rw [(C16_hash_irrelevant .debug h (fun _ => 0) _ _ _ _).1]; rfl
     unfold diffTool
     rw [e1, e2]; rfl⟩

/-- C51, limit: a new symbol without counterpart in the old file is shown like an unchanged one if another new symbol has the
same identity: reports contain each identity only once. -/
theorem C51_duplicates (b : Build) (h : BitVec 64 → BitVec 32) :
    ∃ (new : SymTree) (s : Symbol), Ordered new ∧ Changed SameIdentity new [] s
      ∧ ∃ lines, diffTool b h [] new false 0 = .ok lines ∧ (Mark.kept, s) ∈ lines := by
  refine ⟨[{ address := 16, size := 4, id := { internal := 1 } }, { address := 32, size := 4, id := { internal := 1 } }],
    { address := 32, size := 4, id := { internal := 1 } }, by decide, by decide, ?_⟩
  have e1 : diff b h [{ address := 16, size := 4, id := { internal := 1 } },
      { address := 32, size := 4, id := { internal := 1 } }] [] false 0 =
      .ok [{ address := 16, size := 4, id := { internal := 1 } }] := by
    rw [(C16_hash_irrelevant b h (fun _ => 0) _ _ _ _).1]; rfl
  have e2 : diff b h [] [{ address := 16, size := 4, id := { internal := 1 } },
      { address := 32, size := 4, id := { internal := 1 } }] false 0 = .ok [] := rfl
  refine ⟨_, by unfold diffTool; rw [e1, e2]; rfl, ?_⟩
  decide

/-! ### C54 -/

theorem countStat_from (f : Symbol → Bool) (l : List Symbol) (r : Nat × BitVec 64) :
    l.foldl (fun r s => if f s then (r.1 + 1, r.2 + s.size) else r) r =
      (r.1 + number f l, r.2 + BitVec.ofNat 64 (bytes f l)) := by
  induction l generalizing r with
  | nil => simp [number, bytes]
  | cons s l ih =>
    rw [List.foldl_cons, ih]
    by_cases hf : f s = true
    · simp only [hf, if_true, number, bytes, List.filter_cons, List.length_cons, List.map_cons, List.sum_cons,
        BitVec.ofNat_add, BitVec.ofNat_toNat, BitVec.setWidth_eq]
      refine Prod.ext ?_ ?_
      · change r.1 + 1 + _ = r.1 + (_ + 1); omega
      · change r.2 + s.size + _ = r.2 + (s.size + _); rw [BitVec.add_assoc]
    · simp [hf, number, bytes]

/-- What is counted: the number of symbols of the category and the sum of their sizes (modulo 2^64). -/
theorem countStat_eq (f : Symbol → Bool) (l : List Symbol) :
    countStat f l = (number f l, BitVec.ofNat 64 (bytes f l)) := by
  unfold countStat
  rw [countStat_from]
  simp

/-- Lists without repetition are bounded by the lists they are drawn from. -/
theorem bounded {f : Symbol → Bool} {l m : List Symbol} (hl : l.Nodup) (hs : ∀ x ∈ l, x ∈ m) :
    number f l ≤ number f m ∧ bytes f l ≤ bytes f m := by
  induction l generalizing m with
  | nil => simp [number, bytes]
  | cons x l ih =>
    obtain ⟨hx, hl⟩ := List.nodup_cons.mp hl
    obtain ⟨m₁, m₂, rfl⟩ := List.append_of_mem (hs x List.mem_cons_self)
    have := ih (m := m₁ ++ m₂) hl (by
      intro y hy
      have hne : y ≠ x := fun e => hx (e ▸ hy)
      have := hs y (List.mem_cons_of_mem _ hy)
      simp only [List.mem_append, List.mem_cons] at this ⊢
      rcases this with h | h | h
      · exact .inl h
      · exact absurd h hne
      · exact .inr h)
    simp only [number, bytes, List.filter_append, List.filter_cons, List.map_append, List.sum_append, List.length_append] at this ⊢
    by_cases hf : f x = true
    · simp only [hf, if_true, List.length_cons, List.map_cons, List.sum_cons]
      omega
    · simp only [hf, Bool.false_eq_true, if_false]
      exact this

theorem nodup_of_pairwise {same : Symbol → Symbol → Prop} {l : List Symbol} (hr : ∀ a, same a a)
    (h : l.Pairwise (fun a b => ¬ same a b)) : l.Nodup :=
  h.imp (fun {a b} h (e : a = b) => h (by rw [e]; exact hr b))

theorem diffT_bounded {c : Cmp} {same : Symbol → Symbol → Prop} (hc : c.Lawful same) (this other : SymTree) (deps : Bool)
    (f : Symbol → Bool) :
    number f (diffT c this (SymHash.ofTree c other) deps none) ≤ number f this
    ∧ bytes f (diffT c this (SymHash.ofTree c other) deps none) ≤ bytes f this := by
  have hi := diffT_inv (symbols := this) (other := SymHash.ofTree c other) hc deps none
  exact bounded (nodup_of_pairwise hc.refl (hi.unique.pairwise hc)) (fun x hx => (hi.mem x hx).1)

/-- C54 (added symbols): for each category, the numbers for the new file are the number and size of its symbols, and the counts
and sizes of added symbols are at most these; the printed sizes as well if the total is representable. -/
theorem C54_bounds_partial (h : BitVec 64 → BitVec 32) (a b : SymTree) (deps : Bool) (c : Category) :
    (statOf h a b deps c).total = (number c.filter b, BitVec.ofNat 64 (bytes c.filter b))
    ∧ (statOf h a b deps c).internalAdded.1 ≤ (statOf h a b deps c).total.1
    ∧ (statOf h a b deps c).extendedAdded.1 ≤ (statOf h a b deps c).total.1
    ∧ (bytes c.filter b < 2 ^ 64 →
        (statOf h a b deps c).internalAdded.2.toNat ≤ (statOf h a b deps c).total.2.toNat
        ∧ (statOf h a b deps c).extendedAdded.2.toNat ≤ (statOf h a b deps c).total.2.toNat) := by
  have hi := diffT_bounded (intCmp_lawful h) b a deps c.filter
  have he := diffT_bounded (extCmp_lawful h) b a deps c.filter
  simp only [statOf, countStat_eq]
  refine ⟨trivial, hi.1, he.1, fun hb => ⟨?_, ?_⟩⟩
  · have := hi.2
    simp only [BitVec.toNat_ofNat, diff_internal]
    rw [Nat.mod_eq_of_lt hb, Nat.mod_eq_of_lt (by omega)]
    exact this
  · have := he.2
    simp only [BitVec.toNat_ofNat, diff_extended]
    rw [Nat.mod_eq_of_lt hb, Nat.mod_eq_of_lt (by omega)]
    exact this

/-- C54: likewise the removed symbols are bounded by the symbols of the old file, which are not printed. -/
theorem C54_removed_partial (h : BitVec 64 → BitVec 32) (a b : SymTree) (deps : Bool) (c : Category) :
    (statOf h a b deps c).internalRemoved.1 ≤ number c.filter a ∧ (statOf h a b deps c).extendedRemoved.1 ≤ number c.filter a := by
  have hi := diffT_bounded (intCmp_lawful h) a b deps c.filter
  have he := diffT_bounded (extCmp_lawful h) a b deps c.filter
  simp only [statOf, countStat_eq]
  exact ⟨hi.1, he.1⟩

/-- a pair with one added function among two -/
example : statOf (fun _ => 0) [{ address := 16, size := 4, id := { internal := 3 }, sec := { executable := true } }]
    [{ address := 16, size := 4, id := { internal := 3 }, sec := { executable := true } },
     { address := 32, size := 5, id := { internal := 2 }, sec := { executable := true } }] false .text =
    ⟨(2, 9), (1, 5), (0, 0), (1, 5), (0, 0)⟩ := rfl

/-- C54 fails for removed symbols: the printed total is that of the new file. -/
theorem C54_counterexample (h : BitVec 64 → BitVec 32) :
    ∃ a b : SymTree, Ordered a ∧ Ordered b ∧
      (statOf h a b false .text).total.1 < (statOf h a b false .text).extendedRemoved.1 :=
  ⟨[{ address := 16, size := 4, sec := { executable := true } }], [], by decide, by decide, by
    change 0 < 1; decide⟩

/-- C54: the six categories of plain sections are disjoint for symbols that are not both writeable and executable. -/
theorem C54_disjoint (s : Symbol) (hwx : ¬ (s.sec.writeable = true ∧ s.sec.executable = true)) (c d : Category)
    (hc : c ∈ [Category.text, .rodata, .data, .bss, .tdata, .tbss]) (hd : d ∈ [Category.text, .rodata, .data, .bss, .tdata, .tbss])
    (hfc : c.filter s = true) (hfd : d.filter s = true) : c = d := by
  have nobits : s.sec.flags = 0 → s.sec.has SECTION_NOBITS = false := by
    intro e; unfold Section.has; rw [e]; decide
  simp only [List.mem_cons, List.not_mem_nil, or_false] at hc hd
  cases hw : s.sec.writeable <;> cases hx : s.sec.executable <;> cases ht : TLS.is_tls s.address <;>
    by_cases hf : s.sec.flags = 0#16 <;>
    rcases hc with rfl | rfl | rfl | rfl | rfl | rfl <;> rcases hd with rfl | rfl | rfl | rfl | rfl | rfl <;>
    simp_all [Category.filter]

/-- a symbol in each of the categories -/
example : ∀ c ∈ [Category.text, .rodata, .data, .bss, .tdata, .tbss], ∃ s : Symbol,
    ¬ (s.sec.writeable = true ∧ s.sec.executable = true) ∧ c.filter s = true := by
  intro c hc
  simp only [List.mem_cons, List.not_mem_nil, or_false] at hc
  rcases hc with rfl | rfl | rfl | rfl | rfl | rfl
  · exact ⟨{ address := 0, sec := { executable := true } }, by decide, by decide⟩
  · exact ⟨{ address := 0 }, by decide, by decide⟩
  · exact ⟨{ address := 0, sec := { writeable := true } }, by decide, by decide⟩
  · exact ⟨{ address := 0, sec := { writeable := true, flags := SECTION_NOBITS } }, by decide, by decide⟩
  · exact ⟨{ address := TLS.ADDRESS_FLAG, sec := { writeable := true } }, by decide, by decide⟩
  · exact ⟨{ address := TLS.ADDRESS_FLAG, sec := { writeable := true, flags := SECTION_NOBITS } }, by decide, by decide⟩

/-- C54: writeable code is counted twice. -/
theorem C54_writeable_code : ∃ s : Symbol, Category.text.filter s = true ∧ Category.data.filter s = true :=
  ⟨{ address := 0, sec := { executable := true, writeable := true } }, by decide⟩

/-- C54: equal changes are counted once: all symbols of the new file are added, but not all are counted. -/
theorem C54_duplicates (h : BitVec 64 → BitVec 32) :
    ∃ b : SymTree, Ordered b ∧ (∀ s ∈ b, Changed SameIdentity b [] s ∧ Category.text.filter s = true)
      ∧ (statOf h [] b false .text).extendedAdded.1 < b.length := by
  refine ⟨[{ address := 16, size := 4, id := { internal := 1 }, sec := { executable := true } },
    { address := 32, size := 4, id := { internal := 1 }, sec := { executable := true } }], by decide, by decide, ?_⟩
  have e : diff_extended h [{ address := 16, size := 4, id := { internal := 1 }, sec := { executable := true } },
    { address := 32, size := 4, id := { internal := 1 }, sec := { executable := true } }] [] false =
    [{ address := 16, size := 4, id := { internal := 1 }, sec := { executable := true } }] := by
    simp [diff_extended, diffT, diffStep, SymHash.ofTree, SymHash.contains, SymHash.find, SymHash.insert, extCmp, Symbol.same,
      Section.same]
  simp only [statOf]
  rw [e]
  decide

end Bean.Props

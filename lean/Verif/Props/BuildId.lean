import Verif.Spec.BuildId
/-
Property theorems C48: build identifiers.
-/
namespace Bean
open Spec

theorem hexDigit_facts : ∀ d < 16, hexValue (hexDigit d) = some d ∧ hexDigit d ≠ '\x00' := by decide

theorem nibbles (x : BitVec 8) : x.toNat / 16 < 16 ∧ x.toNat % 16 < 16 := by
  have := x.isLt
  omega

theorem parse_render (desc : List (BitVec 8)) : parseHex (desc.flatMap renderByte) = some desc := by
  induction desc with
  | nil => rfl
  | cons x rest ih =>
    show parseHex (hexDigit (x.toNat / 16) :: hexDigit (x.toNat % 16) :: rest.flatMap renderByte) = _
    simp only [parseHex]
    rw [(hexDigit_facts _ (nibbles x).1).1, (hexDigit_facts _ (nibbles x).2).1, ih]
    simp only
    congr
    apply BitVec.eq_of_toNat_eq
    rw [BitVec.toNat_ofNat]
    have := x.isLt
    omega

theorem render_length (desc : List (BitVec 8)) : (desc.flatMap renderByte).length = 2 * desc.length := by
  induction desc with
  | nil => rfl
  | cons x rest ih =>
    rw [List.flatMap_cons, List.length_append, ih]
    show 2 + _ = _
    rw [List.length_cons]
    omega

theorem render_nonzero (desc : List (BitVec 8)) : ∀ c ∈ desc.flatMap renderByte, c ≠ '\x00' := by
  intro c hc
  obtain ⟨x, _, hx⟩ := List.mem_flatMap.mp hc
  rcases List.mem_cons.mp hx with rfl | hx
  · exact (hexDigit_facts _ (nibbles x).1).2
  · rw [List.mem_singleton.mp hx]
    exact (hexDigit_facts _ (nibbles x).2).2

theorem cText_append {t rest : List Char} (h : ∀ c ∈ t, c ≠ '\x00') : cText (t ++ '\x00' :: rest) = t := by
  unfold cText
  induction t with
  | nil => rfl
  | cons c t ih =>
    have hc : (c != '\x00') = true := by
      have := h c List.mem_cons_self
      simpa using this
    rw [List.cons_append, List.takeWhile_cons, if_pos hc, ih (fun x hx => h x (List.mem_cons_of_mem _ hx))]

theorem bufferWrite_length {buf text : List Char} (h : buf.length ≠ 0) : (bufferWrite buf text).length = buf.length := by
  unfold bufferWrite
  simp only [List.length_append, List.length_cons, List.length_drop, List.length_take]
  omega

theorem bufferWrite_text {buf text : List Char} (h : text.length < buf.length) (hz : ∀ c ∈ text, c ≠ '\x00') :
    cText (bufferWrite buf text) = text := by
  unfold bufferWrite
  rw [List.take_of_length_le (by omega)]
  exact cText_append hz

theorem isBuildId_iff {n : Note} : isBuildId n = true ↔ IsBuildId n := by
  unfold isBuildId IsBuildId NT_GNU_BUILD_ID
  simp

/-- The buffer stays a terminated text. -/
def Terminated (v : List Char) : Prop := v.length = buildIdSize ∧ '\x00' ∈ v

theorem terminated_write {v text : List Char} (h : v.length = buildIdSize) : Terminated (bufferWrite v text) := by
  refine ⟨(bufferWrite_length (by rw [h]; decide)).trans h, ?_⟩
  unfold bufferWrite
  exact List.mem_append_right _ List.mem_cons_self

/-- Effect of one section. -/
theorem readNotes_ok {b : Build} {v v' : List Char} {notes : List Note} (h : readNotes b v notes = .ok v') :
    ((∀ n ∈ notes, ¬ IsBuildId n) ∧ v' = v) ∨
    ∃ pre n post, notes = pre ++ n :: post ∧ IsBuildId n ∧ (∀ m ∈ pre, ¬ IsBuildId m) ∧
      v' = bufferWrite v (n.desc.flatMap renderByte) := by
  induction notes with
  | nil =>
    left
    exact ⟨fun _ h => (by cases h), (Except.ok.inj h).symm⟩
  | cons n rest ih =>
    simp only [readNotes] at h
    by_cases hn : isBuildId n = true
    · rw [if_pos hn] at h
      right
      refine ⟨[], n, rest, rfl, isBuildId_iff.mp hn, fun _ h => (by cases h), ?_⟩
      cases b with
      | release => exact (Except.ok.inj h).symm
      | debug =>
        simp only [massert, bind, Except.bind] at h
        cases hc : ((bufferWrite v (List.flatMap renderByte n.desc))[buildIdSize - 1]? == some '\x00') with
        | false => rw [hc] at h; cases h
        | true => rw [hc] at h; exact (Except.ok.inj h).symm
    · rw [if_neg hn] at h
      have hn' : ¬ IsBuildId n := fun x => hn (isBuildId_iff.mpr x)
      rcases ih h with ⟨h1, h2⟩ | ⟨pre, m, post, h1, h2, h3, h4⟩
      · left
        exact ⟨fun x hx => (List.mem_cons.mp hx).elim (fun e => e ▸ hn') (h1 x), h2⟩
      · right
        exact ⟨n :: pre, m, post, by rw [h1]; rfl, h2,
          fun x hx => (List.mem_cons.mp hx).elim (fun e => e ▸ hn') (h3 x), h4⟩

theorem readNoteSection_ok {b : Build} {v v' : List Char} {sec : NoteSec} (h : readNoteSection b v sec = .ok v') :
    (NoSectionId sec ∧ v' = v) ∨ ∃ desc, SectionId sec desc ∧ v' = bufferWrite v (desc.flatMap renderByte) := by
  unfold readNoteSection at h
  cases hs : sec.isNote with
  | false =>
    rw [hs] at h
    left
    exact ⟨fun hc => absurd (hs.symm.trans hc) (by decide), (Except.ok.inj h).symm⟩
  | true =>
    rw [hs, if_pos rfl] at h
    rcases readNotes_ok h with ⟨h1, h2⟩ | ⟨pre, n, post, h1, h2, h3, h4⟩
    · exact Or.inl ⟨fun _ => h1, h2⟩
    · exact Or.inr ⟨n.desc, ⟨hs, pre, n, post, h1, h2, rfl, h3⟩, h4⟩

/-- The first identifier of a section is unique. -/
theorem sectionId_unique {sec : NoteSec} {d d' : List (BitVec 8)} (h : SectionId sec d) (h' : SectionId sec d') : d = d' := by
  obtain ⟨_, pre, n, post, h1, h2, h3, h4⟩ := h
  obtain ⟨_, pre', n', post', h1', h2', h3', h4'⟩ := h'
  rw [h1] at h1'
  subst h3 h3'
  clear h1
  induction pre generalizing pre' with
  | nil =>
    cases pre' with
    | nil =>
      injection h1' with e1 _
      rw [e1]
    | cons x xs =>
      injection h1' with e1 _
      exact absurd (e1 ▸ h2) (h4' x List.mem_cons_self)
  | cons y ys ih =>
    cases pre' with
    | nil =>
      injection h1' with e1 _
      exact absurd (e1.symm ▸ h2') (h4 y List.mem_cons_self)
    | cons x xs =>
      injection h1' with _ e2
      exact ih (fun m hm => h4 m (List.mem_cons_of_mem _ hm)) xs e2 (fun m hm => h4' m (List.mem_cons_of_mem _ hm))

theorem sections_ok {b : Build} {secs : List NoteSec} {v v' : List Char} (hv : v.length = buildIdSize)
    (h : secs.foldlM (readNoteSection b) v = .ok v') :
    v'.length = buildIdSize ∧
    (((∀ s ∈ secs, NoSectionId s) ∧ v' = v) ∨
      ∃ desc u, FileId secs desc ∧ u.length = buildIdSize ∧ v' = bufferWrite u (desc.flatMap renderByte)) := by
  induction secs generalizing v with
  | nil =>
    rw [← Except.ok.inj h]
    exact ⟨hv, Or.inl ⟨fun _ h => (by cases h), rfl⟩⟩
  | cons sec rest ih =>
    rw [List.foldlM_cons] at h
    cases h1 : readNoteSection b v sec with
    | error e => rw [h1] at h; cases h
    | ok w =>
      rw [h1] at h
      replace h : rest.foldlM (readNoteSection b) w = .ok v' := h
      have hw : w.length = buildIdSize ∧ ((NoSectionId sec ∧ w = v) ∨
          ∃ desc, SectionId sec desc ∧ w = bufferWrite v (desc.flatMap renderByte)) := by
        rcases readNoteSection_ok h1 with ⟨a1, a2⟩ | ⟨d, a1, a2⟩
        · exact ⟨a2 ▸ hv, Or.inl ⟨a1, a2⟩⟩
        · exact ⟨a2 ▸ (terminated_write hv).1, Or.inr ⟨d, a1, a2⟩⟩
      obtain ⟨h2, h3⟩ := ih hw.1 h
      refine ⟨h2, ?_⟩
      rcases h3 with ⟨h3, h4⟩ | ⟨d, u, ⟨pre, s, post, e1, e2, e3⟩, h4, h5⟩
      · rcases hw.2 with ⟨a1, a2⟩ | ⟨d, a1, a2⟩
        · exact Or.inl ⟨fun s hs => (List.mem_cons.mp hs).elim (fun e => e ▸ a1) (h3 s), h4.trans a2⟩
        · exact Or.inr ⟨d, v, ⟨[], sec, rest, rfl, a1, h3⟩, hv, h4.trans a2⟩
      · exact Or.inr ⟨d, u, ⟨sec :: pre, s, post, by rw [e1]; rfl, e2, e3⟩, h4, h5⟩

theorem fileId_unique {secs : List NoteSec} {d d' : List (BitVec 8)} (h : FileId secs d) (h' : FileId secs d') : d = d' := by
  have no : ∀ {s : NoteSec} {d : List (BitVec 8)}, SectionId s d → NoSectionId s → False := by
    rintro s d ⟨h1, pre, n, post, h2, h3, _, _⟩ h
    exact h h1 n (h2 ▸ List.mem_append_right _ List.mem_cons_self) h3
  obtain ⟨pre, s, post, e1, e2, e3⟩ := h
  obtain ⟨pre', s', post', e1', e2', e3'⟩ := h'
  rw [e1] at e1'
  clear e1
  induction pre generalizing pre' with
  | nil =>
    cases pre' with
    | nil =>
      injection e1' with f1 _
      exact sectionId_unique e2 (f1 ▸ e2')
    | cons x xs =>
      injection e1' with _ f2
      exact (no e2' (e3 s' (f2 ▸ List.mem_append_right _ List.mem_cons_self))).elim
  | cons y ys ih =>
    cases pre' with
    | nil =>
      injection e1' with _ f2
      exact (no e2 (e3' s (f2 ▸ List.mem_append_right _ List.mem_cons_self))).elim
    | cons x xs =>
      injection e1' with _ f2
      exact ih xs f2

theorem fileId_not {secs : List NoteSec} {d : List (BitVec 8)} (h : FileId secs d) : ¬ ∀ s ∈ secs, NoSectionId s := by
  obtain ⟨pre, s, post, e1, ⟨h1, p, n, q, h2, h3, _, _⟩, _⟩ := h
  intro hn
  exact hn s (e1 ▸ List.mem_append_right _ List.mem_cons_self) h1 n (h2 ▸ List.mem_append_right _ List.mem_cons_self) h3

/-- C48: whatever notes a file has, the text in the buffer is terminated; it is empty if there is no build identifier;
an identifier of up to 20 bytes is rendered by two lowercase hexadecimal digits for each byte, from which the bytes can be
recovered. -/
theorem C48_text (b : Build) (junk : List Char) (hj : junk.length = 41) (secs : List NoteSec) (v : List Char)
    (h : buildIdOf b junk (some secs) = .ok v) :
    (v.length = 41 ∧ '\x00' ∈ v) ∧
    ((∀ s ∈ secs, NoSectionId s) → cText v = [] ∧ available v = false) ∧
    ∀ desc, FileId secs desc → desc.length ≤ 20 →
      (cText v).length = 2 * desc.length ∧ parseHex (cText v) = some desc ∧ (available v = true ↔ desc ≠ []) := by
  have hc : (clearFirst junk).length = buildIdSize := by
    unfold clearFirst buildIdSize
    rw [List.length_cons, List.length_tail, hj]
  obtain ⟨h1, h2⟩ := sections_ok hc h
  refine ⟨⟨h1, ?_⟩, ?_, ?_⟩
  · rcases h2 with ⟨_, rfl⟩ | ⟨d, u, _, hu, rfl⟩
    · exact List.mem_cons_self
    · exact (terminated_write hu).2
  · intro hn
    rcases h2 with ⟨_, rfl⟩ | ⟨d, u, hf, hu, rfl⟩
    · exact ⟨rfl, rfl⟩
    · exact absurd hn (fileId_not hf)
  · intro desc hf hlen
    rcases h2 with ⟨hn, _⟩ | ⟨d, u, hf', hu, rfl⟩
    · exact absurd hn (fileId_not hf)
    · have := fileId_unique hf hf'
      subst this
      have hl := render_length desc
      have ht : cText (bufferWrite u (desc.flatMap renderByte)) = desc.flatMap renderByte :=
        bufferWrite_text (by rw [hl, hu]; unfold buildIdSize; omega) (render_nonzero desc)
      rw [ht]
      refine ⟨hl, parse_render desc, ?_⟩
      have hle : (desc.flatMap renderByte).length ≤ u.length - 1 := by rw [hl, hu]; unfold buildIdSize; omega
      unfold bufferWrite available
      simp only
      rw [List.take_of_length_le hle]
      cases desc with
      | nil => simp
      | cons x rest =>
        have := (hexDigit_facts _ (nibbles x).1).2
        simp only [List.flatMap_cons, renderByte, List.cons_append, List.head?_cons, ne_eq, reduceCtorEq, not_false_eq_true,
          iff_true]
        simpa using this

/-- A file for the examples: the first section has an identifier behind another note, the second none. -/
def exNotes (desc : List (BitVec 8)) : List NoteSec :=
  [{ isNote := true, notes := [{ name := some "Go", type := 3, desc := [1] }, { name := some "GNU", type := 3, desc := desc }] },
   { isNote := false, notes := [{ name := some "GNU", type := 3, desc := [2] }] }]

theorem exNotes_id (desc : List (BitVec 8)) : FileId (exNotes desc) desc := by
  refine ⟨[], _, _, rfl, ⟨rfl, [_], _, [], rfl, ⟨rfl, rfl⟩, rfl, ?_⟩, ?_⟩
  · intro m hm
    rw [List.mem_singleton.mp hm]
    exact fun h => absurd h.1 (by decide)
  · intro s hs
    rw [List.mem_singleton.mp hs]
    exact fun h => (by cases h)

example : parseHex (cText ((bufferWrite (clearFirst (List.replicate 41 'x')) "0aff".toList))) = some [0x0a, 0xff] :=
  ((C48_text .release (List.replicate 41 'x') rfl (exNotes [0x0a, 0xff]) _ rfl).2.2 _ (exNotes_id _) (by decide)).2.1

/-- C48: there is no identifier without file, text or sections, whatever the buffer contained before. -/
theorem C48_no_file (b : Build) (junk : List Char) (hj : junk.length = 41) :
    (∃ v, buildIdOf b junk none = .ok v ∧ v.length = 41 ∧ cText v = [] ∧ available v = false) ∧
    (buildIdText junk none).length = 41 ∧ cText (buildIdText junk none) = [] ∧ available (buildIdText junk none) = false := by
  match junk, hj with
  | c :: cs, hj => exact ⟨⟨_, rfl, hj, rfl, rfl⟩, hj, rfl, rfl⟩

example : (List.replicate 41 'x').length = 41 := by decide

/-- C48: files with different identifiers of up to 20 bytes get different texts, files with the same identifier the same one. -/
theorem C48_lossless (b : Build) (junk junk' : List Char) (hj : junk.length = 41) (hj' : junk'.length = 41)
    (secs secs' : List NoteSec) (v v' : List Char) (h : buildIdOf b junk (some secs) = .ok v)
    (h' : buildIdOf b junk' (some secs') = .ok v') (desc desc' : List (BitVec 8)) (hd : FileId secs desc)
    (hd' : FileId secs' desc') (hl : desc.length ≤ 20) (hl' : desc'.length ≤ 20) : cText v = cText v' ↔ desc = desc' := by
  obtain ⟨_, h2, _⟩ := (C48_text b junk hj secs v h).2.2 desc hd hl
  obtain ⟨_, h2', _⟩ := (C48_text b junk' hj' secs' v' h').2.2 desc' hd' hl'
  constructor
  · intro e
    rw [e, h2'] at h2
    injection h2 with h2
    exact h2.symm
  · rintro rfl
    have hc : ∀ j : List Char, j.length = 41 → (clearFirst j).length = buildIdSize := by
      intro j hj
      unfold clearFirst buildIdSize
      rw [List.length_cons, List.length_tail, hj]
    have ht : ∀ {secs : List NoteSec} {j v : List Char}, j.length = 41 → buildIdOf b j (some secs) = .ok v → FileId secs desc →
        cText v = desc.flatMap renderByte := by
      intro secs j v hj h hd
      rcases (sections_ok (hc j hj) h).2 with ⟨hn, _⟩ | ⟨d, u, hf', hu, rfl⟩
      · exact absurd hn (fileId_not hd)
      · have := fileId_unique hd hf'
        subst this
        exact bufferWrite_text (by rw [render_length, hu]; unfold buildIdSize; omega) (render_nonzero desc)
    rw [ht hj h hd, ht hj' h' hd']

example : cText (bufferWrite (clearFirst (List.replicate 41 'x')) "0aff".toList) ≠
    cText (bufferWrite (clearFirst (List.replicate 41 'x')) "0afe".toList) := fun e =>
  absurd ((C48_lossless .release _ _ rfl rfl (exNotes [0x0a, 0xff]) (exNotes [0x0a, 0xfe]) _ _ rfl rfl _ _
    (exNotes_id _) (exNotes_id _) (by decide) (by decide)).mp e) (by decide)

/-- C48: longer identifiers are cut, different ones can get the same text. -/
theorem C48_truncated (b : Build) (junk : List Char) (hj : junk.length = 41) :
    ∃ secs secs' v desc desc', buildIdOf b junk (some secs) = .ok v ∧ buildIdOf b junk (some secs') = .ok v ∧
      FileId secs desc ∧ FileId secs' desc' ∧ desc ≠ desc' := by
  have hw : ∀ x : BitVec 8, buildIdOf b junk (some (exNotes (List.replicate 20 0 ++ [x]))) =
      .ok (List.replicate 40 '0' ++ ['\x00']) := by
    intro x
    have e : bufferWrite (clearFirst junk) ((List.replicate 20 0 ++ [x]).flatMap renderByte) = List.replicate 40 '0' ++ ['\x00'] := by
      unfold bufferWrite
      have hlen : (clearFirst junk).length = 41 := by
        unfold clearFirst
        rw [List.length_cons, List.length_tail, hj]
      have ht : ((List.replicate 20 0 ++ [x]).flatMap renderByte).take ((clearFirst junk).length - 1) = List.replicate 40 '0' := by
        rw [hlen, List.flatMap_append, List.take_append_of_le_length (by rw [render_length]; simp)]
        decide
      simp only
      rw [ht, List.drop_of_length_le (by rw [hlen]; simp)]
    show (readNoteSection b (clearFirst junk) _ >>= fun v => readNoteSection b v _ >>= fun v => pure v) = _
    have h1 : readNoteSection b (clearFirst junk)
        { isNote := true, notes := [{ name := some "Go", type := 3, desc := [1] },
          { name := some "GNU", type := 3, desc := List.replicate 20 0 ++ [x] }] } = .ok (List.replicate 40 '0' ++ ['\x00']) := by
      show (massert b ((bufferWrite (clearFirst junk) ((List.replicate 20 0 ++ [x]).flatMap renderByte))[buildIdSize - 1]? ==
        some '\x00') >>= fun _ => pure (bufferWrite (clearFirst junk) ((List.replicate 20 0 ++ [x]).flatMap renderByte))) = _
      rw [e]
      cases b <;> rfl
    rw [h1]
    rfl
  exact ⟨_, _, _, _, _, hw 1, hw 2, exNotes_id _, exNotes_id _, by decide⟩

/-- C48: the assertion on the last byte of the buffer reads uninitialised memory for identifiers shorter than 20 bytes: in a
debug build the outcome depends on the previous content of the memory. -/
theorem C48_uninitialised :
    buildIdOf .debug (List.replicate 41 'x') (some (exNotes [0x0a, 0xff])) = .error .assert ∧
    ∃ v, buildIdOf .debug (List.replicate 41 '\x00') (some (exNotes [0x0a, 0xff])) = .ok v := by
  exact ⟨by rfl, _, rfl⟩

theorem readNotes_full {b : Build} {v : List Char} {notes : List Note} (hv : v.length = buildIdSize)
    (hb : b = .release ∨ ∀ n ∈ notes, IsBuildId n → 20 ≤ n.desc.length) : ∃ v', readNotes b v notes = .ok v' := by
  induction notes with
  | nil => exact ⟨v, rfl⟩
  | cons n rest ih =>
    simp only [readNotes]
    by_cases hn : isBuildId n = true
    · rw [if_pos hn]
      rcases hb with rfl | hb
      · exact ⟨_, rfl⟩
      · have h20 := hb n List.mem_cons_self (isBuildId_iff.mp hn)
        have hlen := render_length n.desc
        have hc : (bufferWrite v (n.desc.flatMap renderByte))[buildIdSize - 1]? = some '\x00' := by
          unfold bufferWrite
          simp only
          have ht : ((n.desc.flatMap renderByte).take (v.length - 1)).length = 40 := by
            rw [List.length_take, hv, hlen]; unfold buildIdSize; omega
          rw [List.getElem?_append_right (by rw [ht]; decide), ht]
          rfl
        simp only [hc]
        cases b <;> exact ⟨_, rfl⟩
    · rw [if_neg hn]
      exact ih (hb.imp id (fun h m hm => h m (List.mem_cons_of_mem _ hm)))

/-- C48: without assertions, or with identifiers of at least 20 bytes, the constructor never aborts. -/
theorem C48_no_abort (b : Build) (junk : List Char) (hj : junk.length = 41) (secs : List NoteSec)
    (hb : b = .release ∨ ∀ s ∈ secs, s.isNote = true → ∀ n ∈ s.notes, IsBuildId n → 20 ≤ n.desc.length) :
    ∃ v, buildIdOf b junk (some secs) = .ok v := by
  have main : ∀ (v : List Char), v.length = buildIdSize →
      (b = .release ∨ ∀ s ∈ secs, s.isNote = true → ∀ n ∈ s.notes, IsBuildId n → 20 ≤ n.desc.length) →
      ∃ v', secs.foldlM (readNoteSection b) v = .ok v' := by
    clear hb
    induction secs with
    | nil => exact fun v _ _ => ⟨v, rfl⟩
    | cons s rest ih =>
      intro v hv hb
      have h1 : ∃ w, readNoteSection b v s = .ok w := by
        unfold readNoteSection
        split
        · rename_i hs
          exact readNotes_full hv (hb.imp id (fun h => h s List.mem_cons_self hs))
        · exact ⟨v, rfl⟩
      obtain ⟨w, h1⟩ := h1
      have hw : w.length = buildIdSize := by
        rcases readNoteSection_ok h1 with ⟨_, a2⟩ | ⟨d, _, a2⟩
        · exact a2 ▸ hv
        · exact a2 ▸ (terminated_write hv).1
      rw [List.foldlM_cons, h1]
      exact ih w hw (hb.imp id (fun h x hx => h x (List.mem_cons_of_mem _ hx)))
  refine main _ ?_ hb
  unfold clearFirst buildIdSize
  rw [List.length_cons, List.length_tail, hj]

example : ∃ v, buildIdOf .debug (List.replicate 41 'x') (some (exNotes (List.replicate 20 7))) = .ok v :=
  C48_no_abort .debug _ rfl _ (Or.inr (by unfold IsBuildId; decide))

theorem stringCopy_text {n : Nat} {dst src : List Char} (h1 : (cText src).length < n) (h2 : n ≤ dst.length)
    (h3 : '\x00' ∈ src) : cText (stringCopy n dst src) = cText src ∧ (stringCopy n dst src).length = dst.length ∧
      '\x00' ∈ stringCopy n dst src := by
  induction src generalizing n dst with
  | nil => cases h3
  | cons c src ih =>
    cases n with
    | zero => omega
    | succ n =>
      cases dst with
      | nil => simp at h2
      | cons d dst =>
        simp only [stringCopy]
        by_cases hc : c = '\x00'
        · subst hc
          rw [if_pos rfl]
          exact ⟨rfl, rfl, List.mem_cons_self⟩
        · rw [if_neg hc]
          have hc' : (c != '\x00') = true := by simpa using hc
          have e : ∀ l, cText (c :: l) = c :: cText l := fun l => by
            unfold cText
            rw [List.takeWhile_cons, if_pos hc']
          have hm : '\x00' ∈ src := by
            rcases List.mem_cons.mp h3 with h | h
            · exact absurd h.symm hc
            · exact h
          rw [e, List.length_cons] at h1
          rw [List.length_cons] at h2
          obtain ⟨i1, i2, i3⟩ := ih (n := n) (dst := dst) (by omega) (by omega) hm
          rw [e, e, i1]
          exact ⟨rfl, by rw [List.length_cons, List.length_cons, i2], List.mem_cons_of_mem _ i3⟩

/-- C48: the copy of an identifier has the same text and is terminated as well. -/
theorem C48_copy (junk value : List Char) (hj : junk.length = 41) (hv : value.length = 41) (ht : '\x00' ∈ value) :
    cText (buildIdText junk (some value)) = cText value ∧ (buildIdText junk (some value)).length = 41 ∧
      '\x00' ∈ buildIdText junk (some value) := by
  have hlt : (cText value).length < 41 := by
    unfold cText
    have : (value.takeWhile (· != '\x00')).length < value.length := by
      clear hv
      induction value with
      | nil => cases ht
      | cons c l ih =>
        rw [List.takeWhile_cons]
        split
        · rename_i hc
          rcases List.mem_cons.mp ht with h | h
          · subst h; simp at hc
          · have := ih h
            rw [List.length_cons, List.length_cons]
            omega
        · simp
    omega
  have := stringCopy_text (n := buildIdSize) (dst := junk) hlt (by rw [hj]; decide) ht
  rw [hj] at this
  exact this

example : cText (buildIdText (List.replicate 41 'x') (some ("0aff".toList ++ List.replicate 37 '\x00'))) = "0aff".toList :=
  (C48_copy _ ("0aff".toList ++ List.replicate 37 '\x00') rfl rfl (by decide)).1

end Bean

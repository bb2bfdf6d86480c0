import Verif.Lemmas.RebaseRead
import Verif.Lemmas.TotalRead
import Verif.Props.FileRecon
/-
Symbols of a moved file before their contents are hashed (C100).
-/
namespace Bean
open Bean.Spec

variable {m : Rebase} {elf : Elf} {rels : List ElfRel} {packed : List Addr} {st : AState}

theorem readSections_rebase {env : Env} {fl : AnalyzeFlags} {dbg : Option Elf} {add : Bool} {d : Elf} (hr : Rebasable env fl m elf dbg)
    (h : GoodRead m elf (allRelocations elf dbg) (allRelative elf dbg) st) (hd : Part elf dbg d) (hadd : add = true → d = elf) :
    Carries (rebaseState m elf.sections) (GoodRead m elf (allRelocations elf dbg) (allRelative elf dbg))
      (readSections env.build add st d.sections)
      (readSections env.build add (rebaseState m elf.sections st) (d.sections.map (rebaseSec m d.sections))) := by
  have hpart : d ∈ partsOf elf dbg := by
    unfold partsOf
    rcases hd with rfl | hd
    · exact List.mem_cons_self
    · rw [hd]; exact List.mem_cons_of_mem _ List.mem_cons_self
  refine Carries.foldlM (f := readSection env.build d.sections add) (k := rebaseSec m d.sections) (fun sec hs s hst => ?_) h
  refine readSection_rebase hst hr.tls hs (fun ha => ?_) (fun sec hs hal => ?_) (fun sym hsym sec hin => hr.symbols d hd sym hsym sec hin)
    (fun r hz ht hm => ?_) (fun r hz ht hm => ?_) (fun r h => (hr.relocations r h).offset) hr.packed
  · rw [hadd ha]; exact ⟨rfl, hr.sections⟩
  · rcases hd with rfl | hd
    · exact ⟨(hr.sections sec hs hal).start, (hr.sections sec hs hal).tls⟩
    · exact hr.debug d hd sec hs hal
  · exact List.mem_flatMap.mpr ⟨d, hpart, List.mem_flatMap.mpr ⟨sec, hs, by rw [if_pos ⟨hz, ht⟩]; exact hm⟩⟩
  · exact List.mem_flatMap.mpr ⟨d, hpart, List.mem_flatMap.mpr ⟨sec, hs, by rw [if_pos ⟨hz, ht⟩]; exact hm⟩⟩

theorem readDebug_rebase {env : Env} {fl : AnalyzeFlags} {dbg : Option Elf} (hr : Rebasable env fl m elf dbg)
    (h : GoodRead m elf (allRelocations elf dbg) (allRelative elf dbg) st) :
    Carries (rebaseState m elf.sections) (GoodRead m elf (allRelocations elf dbg) (allRelative elf dbg))
      (readDebug env.build st dbg) (readDebug env.build (rebaseState m elf.sections st) (dbg.map (rebaseElf m))) := by
  cases hd : dbg with
  | none => subst hd; exact Carries.ok rfl h
  | some d =>
    have := readSections_rebase (add := false) hr h (Or.inr hd) (fun h => by cases h)
    rw [hd] at this
    exact this

/-! ### Targets of relocations -/

/-- What is known when all tables have been read. -/
structure GoodMid (m : Rebase) (elf : Elf) (rels : List ElfRel) (packed : List Addr) (st : AState) : Prop where
  read : GoodRead m elf rels packed st
  all : st.sections = Tree.ofList (loadedSections elf.sections)

theorem sections_shift {env : Env} (h : GoodState m elf rels packed st) (hlow : ∀ sec ∈ elf.sections, sec.allocate = true → SectionLow env m sec) :
    ∀ y ∈ st.sections, Shifts (rebaseSec m elf.sections) m.dist y :=
  fun y hy => sec_key _ (h.sections y hy).2.1 (hlow y (h.sections y hy).1 (h.sections y hy).2.1)

theorem plain_rebase {sec : ElfSec} {a : Addr} {t : ElfSymType} (secs : List ElfSec) (hal : sec.allocate = true) (hs : Addressed m.dist sec.virt_addr) :
    rebaseArgs m.dist (plainArgs sec a t) = plainArgs (rebaseSec m secs sec) (a + m.dist) t := by
  unfold rebaseArgs plainArgs
  dsimp only
  rw [hs.zero, sec_virt secs hal]
  rfl

theorem plain_good {sec : ElfSec} {a : Addr} {t : ElfSymType} (ha : AddressedT m.tls m.dist a) (hs : Addressed m.dist sec.virt_addr) :
    GoodArgs m.tls m.dist (plainArgs sec a t) := ⟨ha, (by show BitVec.toNat (0 : Addr) < 2 ^ 51; decide), Or.inr hs⟩

theorem insert_mid {b : Build} {a : InsertArgs} (h : GoodMid m elf rels packed st) (ha : GoodArgs m.tls m.dist a) :
    Carries (rebaseState m elf.sections) (GoodMid m elf rels packed) (st.insertSymbol b a)
      ((rebaseState m elf.sections st).insertSymbol b (rebaseArgs m.dist a)) := by
  refine ((stInsert_rebase (b := b) (secs := elf.sections) h.read.1 ha).also (Q := fun st' => st'.sections = st.sections) ?_).mono ?_
  · intro st' hst
    obtain ⟨t, _, rfl⟩ := stInsert_ok hst
    rfl
  · rintro st' ⟨⟨h1, h2⟩, h3⟩
    exact ⟨⟨h1, h2.trans h.read.2⟩, h3.trans h.all⟩

theorem readRelocation_rebase {env : Env} (hlow : ∀ sec ∈ elf.sections, sec.allocate = true → SectionLow env m sec)
    (h : GoodMid m elf rels packed st) {rel : ElfRel} (hrel : RelativeType rel.type → Addressed m.dist rel.addend) :
    Carries (rebaseState m elf.sections) (GoodMid m elf rels packed) (readRelocation env.build st rel)
      (readRelocation env.build (rebaseState m elf.sections st) (rebaseElfRel m.dist rel)) := by
  unfold readRelocation
  refine Carries.ite Iff.rfl (fun hc => ?_) (fun _ => Carries.ok rfl h)
  have ha := hrel hc
  have e : (rebaseElfRel m.dist rel).addend = rel.addend + m.dist := if_pos hc
  rw [e]
  refine Carries.bind (Carries.deref (g := rebaseSec m elf.sections) (floor_shift (sections_shift h.read.1 hlow) ha.2.noWrap)) (fun sec hsec => ?_)
  have hl := h.read.1.sections sec (Tree.floor_mem hsec)
  have hs := (hlow sec hl.1 hl.2.1).start
  refine Carries.assert (fun hc => hc) (Carries.assert (fun hc => hc) ?_)
  rw [← plain_rebase elf.sections hl.2.1 hs]
  exact insert_mid h (plain_good ha.addressedT hs)

theorem readRelative_rebase {env : Env} {fl : AnalyzeFlags} {dbg : Option Elf} (hr : Rebasable env fl m elf dbg)
    (h : GoodMid m elf rels packed st) {o : Addr} (ho : o ∈ allRelative elf dbg) :
    Carries (rebaseState m elf.sections) (GoodMid m elf rels packed) (readRelative env.build st o)
      (readRelative env.build (rebaseState m elf.sections st) (o + m.dist)) := by
  unfold readRelative
  have hsh := sections_shift h.read.1 hr.sections
  refine Carries.bind (Carries.deref (g := rebaseSec m elf.sections) (floor_shift hsh (hr.packed o ho).noWrap)) (fun sec hsec => ?_)
  have hl := h.read.1.sections sec (Tree.floor_mem hsec)
  have hstart : (secStart sec).toNat ≤ o.toNat := BitVec.le_def.mp (Tree.floor_le hsec)
  have hin : o.toNat < (secEnd env sec).toNat := by
    refine hr.inside o ho sec hl hstart (fun sec' hl' hle => ?_)
    rw [h.all] at hsec
    obtain ⟨_, _, h3⟩ := (Tree.floor_eq_some_iff (Tree.sorted_ofList _)).mp hsec
    obtain ⟨y, hy, hyk⟩ := ofList_key (mem_loadedSections.mpr hl')
    have hyk' : secStart y = secStart sec' := hyk
    have := BitVec.le_def.mp (h3 y hy (BitVec.le_def.mpr (by show (secStart y).toNat ≤ _; rw [hyk']; exact hle)))
    rw [← hyk']; exact this
  refine Carries.bind (g := fun _ => ((m.data sec).drop (o - sec.virt_addr).toNat).take 8)
    (P := fun bytes => bytes = (sec.data.drop (o - sec.virt_addr).toNat).take 8 ∧ (o - sec.virt_addr).toNat + 8 ≤ sec.data.length) ?_ (fun bytes hb => ?_)
  · intro bytes hb
    unfold readBytes at hb ⊢
    rw [sec_virt elf.sections hl.2.1, sub_shift, show (rebaseSec m elf.sections sec).data = m.data sec from rfl, hr.length sec hl]
    split at hb
    · rename_i hc
      cases hb
      rw [if_pos hc]
      exact ⟨rfl, rfl, hc⟩
    · cases hb
  · obtain ⟨rfl, hlen⟩ := hb
    obtain ⟨hp1, hp2⟩ := hr.pointers o ho sec hl hstart hin hlen
    dsimp only
    rw [hp2, show (rebaseState m elf.sections st).sections = st.sections.map (rebaseSec m elf.sections) from rfl, floor_shift hsh hp1.2.noWrap]
    cases hf : Tree.floor st.sections (leValue ((sec.data.drop (o - sec.virt_addr).toNat).take 8)) with
    | none => exact Carries.ok rfl h
    | some sec2 =>
      have hl2 := h.read.1.sections sec2 (Tree.floor_mem hf)
      have hs2 := (hr.sections sec2 hl2.1 hl2.2.1).start
      dsimp only [Option.map_some]
      rw [← plain_rebase elf.sections hl2.2.1 hs2]
      exact insert_mid h (plain_good hp1.addressedT hs2)

theorem readTargets_rebase {env : Env} {fl : AnalyzeFlags} {dbg : Option Elf} (hr : Rebasable env fl m elf dbg)
    (h : GoodMid m elf (allRelocations elf dbg) (allRelative elf dbg) st) :
    Carries (rebaseState m elf.sections) (GoodMid m elf (allRelocations elf dbg) (allRelative elf dbg)) (readTargets env.build st)
      (readTargets env.build (rebaseState m elf.sections st)) := by
  unfold readTargets
  refine Carries.bind (Carries.foldlM (f := readRelocation env.build) (k := rebaseElfRel m.dist) (fun rel hrel s hs => ?_) h) (fun s hs => ?_)
  · exact readRelocation_rebase hr.sections hs (fun ht => ((hr.relocations rel (h.read.1.relocations rel hrel)).relative ht).1)
  · exact Carries.foldlM (f := readRelative env.build) (k := fun o : Addr => o + m.dist)
      (fun o ho s' hs' => readRelative_rebase hr hs' (hs.read.1.relative o ho)) hs

/-! ### Search for functions -/

def rebaseFind (m : Rebase) (f : FindState) : FindState :=
  { f with symbols := f.symbols.map (rebaseSymbol m.tls m.dist), start := f.start + m.dist, max_branch := f.max_branch + m.dist }

/-- What is known about the search at an address `n` at most. -/
structure GoodFind (m : Rebase) (n : Nat) (f : FindState) : Prop where
  symbols : ∀ s ∈ f.symbols, GoodSym m.tls m.dist s
  branch : Low m.dist f.max_branch
  start : Addressed m.dist f.start
  order : f.start.toNat ≤ n

theorem GoodFind.mono {n n' : Nat} {f : FindState} (h : GoodFind m n f) (hn : n ≤ n') : GoodFind m n' f :=
  ⟨h.symbols, h.branch, h.start, Nat.le_trans h.order hn⟩

theorem insertStart_rebase {b : Build} {sec : ElfSec} (secs : List ElfSec) (hal : sec.allocate = true) (hs : Addressed m.dist sec.virt_addr)
    (ht : sec.tls = true → m.tls = true) {a : Addr} (ha : Addressed m.dist a) {n : Nat}
    (hn : a.toNat ≤ n) {f : FindState} (h : GoodFind m n f) :
    Carries (rebaseFind m) (GoodFind m n) (insertStart b sec a f) (insertStart b (rebaseSec m secs sec) (a + m.dist) (rebaseFind m f)) := by
  unfold insertStart
  refine Carries.assert (fun hc => hc) ?_
  have := insertSymbol_rebase (b := b) h.symbols (plain_good (t := .func) (ha.trans ht) hs)
  rw [plain_rebase secs hal hs, ← ha.2.trans] at this
  exact Carries.bind this (fun t hgood => Carries.ok rfl ⟨hgood, ha.2, ha, hn⟩)

theorem findStart_rebase {env : Env} {sec : ElfSec} (secs : List ElfSec) (hal : sec.allocate = true) (hs : Addressed m.dist sec.virt_addr)
    (ht : sec.tls = true → m.tls = true) {i : Insn} (ha : Addressed m.dist i.address) {n : Nat}
    (hn : i.address.toNat ≤ n) {f : FindState} (h : GoodFind m n f) :
    Carries (rebaseFind m) (GoodFind m n) (findStart env sec i f)
      (findStart (rebaseEnv m.dist env) (rebaseSec m secs sec) (moveInsn env m.dist i) (rebaseFind m f)) := by
  unfold findStart
  rw [show (rebaseEnv m.dist env).kind (moveInsn env m.dist i).id = env.kind i.id from rfl,
    show (moveInsn env m.dist i).address = i.address + m.dist from rfl]
  have hins : Carries (rebaseFind m) (GoodFind m n) (do
        let f ← insertStart env.build sec i.address f
        return { f with ret := false })
      (do
        let f ← insertStart (rebaseEnv m.dist env).build (rebaseSec m secs sec) (i.address + m.dist) (rebaseFind m f)
        return { f with ret := false }) :=
    Carries.bind (insertStart_rebase secs hal hs ht ha hn h) (fun f' hf => Carries.ok rfl ⟨hf.symbols, hf.branch, hf.start, hf.order⟩)
  have hother : Carries (rebaseFind m) (GoodFind m n) (if f.ret = true ∧ f.max_branch < i.address then (do
        let f ← insertStart env.build sec i.address f
        return { f with ret := false }) else .ok { f with ret := false })
      (if (rebaseFind m f).ret = true ∧ (rebaseFind m f).max_branch < i.address + m.dist then (do
        let f ← insertStart (rebaseEnv m.dist env).build (rebaseSec m secs sec) (i.address + m.dist) (rebaseFind m f)
        return { f with ret := false }) else .ok { rebaseFind m f with ret := false }) := by
    refine Carries.ite ?_ (fun _ => hins) (fun _ => Carries.ok rfl ⟨h.symbols, h.branch, h.start, h.order⟩)
    show (f.ret = true ∧ f.max_branch + m.dist < i.address + m.dist) ↔ _
    rw [add_lt_iff h.branch.noWrap ha.2.noWrap]
  cases env.kind i.id with
  | jmp => exact Carries.ok rfl ⟨h.symbols, h.branch, h.start, h.order⟩
  | halt => exact Carries.ok rfl ⟨h.symbols, h.branch, h.start, h.order⟩
  | endbr =>
    refine Carries.ite Iff.rfl (fun _ => hins) (fun _ => Carries.ok rfl ⟨h.symbols, h.branch, ha, hn⟩)
  | _ => exact hother

theorem directTarget_move {env : Env} {x : Step} (hx : InsGroup.jump ∈ x.insn.groups ∨ InsGroup.call ∈ x.insn.groups)
    (h : TargetsLow env m.dist x) :
    Carries (Option.map (· + m.dist)) (fun o => ∀ t, o = some t → Addressed m.dist t) (directTarget x.insn)
      (directTarget (moveInsn env m.dist x.insn)) := by
  intro o ho
  have hlow : ∀ t, o = some t → Addressed m.dist t := by
    intro t e
    rw [e] at ho
    exact (h hx t ho).1
  refine ⟨?_, hlow⟩
  have hops : (moveInsn env m.dist x.insn).ops.getLast? = x.insn.ops.getLast?.map (moveOp (env.kind x.insn.id) m.dist) := by
    show (x.insn.ops.map _).getLast? = _
    rw [List.getLast?_map]
  unfold directTarget at ho ⊢
  rw [hops]
  cases hl : x.insn.ops.getLast? with
  | none => rw [hl] at ho; cases ho
  | some op =>
    rw [hl] at ho
    cases op with
    | imm v a =>
      have hb : Branching (env.kind x.insn.id) := by
        refine (h hx v ?_).2 v a hl
        unfold directTarget; rw [hl]
      cases ho
      simp only [Option.map_some, moveOp, if_pos hb]
    | mem s base i c disp a =>
      simp only [Option.map_some, moveOp] at ho ⊢
      cases ho
      by_cases hb : base = X86_REG_RIP
      · rw [if_pos hb, if_pos hb, Option.map_some, show (moveInsn env m.dist x.insn).address = x.insn.address + m.dist from rfl,
          show (moveInsn env m.dist x.insn).size = x.insn.size from rfl, add_swap m.dist, add_swap m.dist]
      · rw [if_neg hb, if_neg hb]; rfl
    | _ => cases ho; rfl

theorem findCall_rebase {env : Env} (hlow : ∀ sec ∈ elf.sections, sec.allocate = true → SectionLow env m sec) (hst : GoodState m elf rels packed st)
    {x : Step} (hx : InsGroup.call ∈ x.insn.groups) (h : TargetsLow env m.dist x) {n : Nat} {f : FindState}
    (hf : GoodFind m n f) :
    Carries (rebaseFind m) (GoodFind m n) (findCall env.build st x.insn f)
      (findCall env.build (rebaseState m elf.sections st) (moveInsn env m.dist x.insn) (rebaseFind m f)) := by
  unfold findCall
  refine Carries.bind (directTarget_move (Or.inr hx) h) (fun o ho => ?_)
  cases o with
  | none => exact Carries.ok rfl hf
  | some t =>
    have ht := ho t rfl
    dsimp only [Option.map_some]
    rw [show (rebaseState m elf.sections st).sections = st.sections.map (rebaseSec m elf.sections) from rfl,
      floor_shift (sections_shift hst hlow) ht.2.noWrap]
    cases hfl : Tree.floor st.sections t with
    | none => exact Carries.ok rfl hf
    | some sec =>
      have hl := hst.sections sec (Tree.floor_mem hfl)
      have hs := hlow sec hl.1 hl.2.1
      dsimp only [Option.map_some]
      refine Carries.ite Iff.rfl (fun _ => ?_) (fun _ => Carries.ok rfl hf)
      have := insertSymbol_rebase (b := env.build) hf.symbols (plain_good (t := .func) (ht.trans hs.tls) hs.start)
      rw [plain_rebase elf.sections hl.2.1 hs.start, ← ht.2.trans] at this
      exact Carries.bind this (fun t hgood => Carries.ok rfl ⟨hgood, hf.branch, hf.start, hf.order⟩)

/-- A name for a function of the procedure linkage table. -/
theorem nameImport_rebase {env : Env} (hlow : ∀ sec ∈ elf.sections, sec.allocate = true → SectionLow env m sec) (hst : GoodState m elf rels packed st)
    {x : Step} {n : Nat} (hn : n ≤ x.address.toNat) (ha : x.address.toNat < 2 ^ 51) {f : FindState} (hf : GoodFind m n f) :
    Carries (rebaseFind m) (GoodFind m n) (nameImport env.build st x.insn x.address f)
      (nameImport env.build (rebaseState m elf.sections st) (moveInsn env m.dist x.insn) (x.address + m.dist) (rebaseFind m f)) := by
  unfold nameImport
  refine Carries.assert (fun h => ?_) ?_
  · rw [show (moveInsn env m.dist x.insn).ops = x.insn.ops.map (moveOp (env.kind x.insn.id) m.dist) from rfl, List.length_map]
    exact h
  rw [show (moveInsn env m.dist x.insn).ops = x.insn.ops.map (moveOp (env.kind x.insn.id) m.dist) from rfl]
  have hno : ∀ {m' : M FindState}, Carries (rebaseFind m) (GoodFind m n) (do massert env.build false; .error .ub) m' := by
    intro m' y hy
    cases hb : env.build <;> rw [hb] at hy <;> cases hy
  cases x.insn.ops with
  | nil => exact hno
  | cons op ops =>
    cases op with
    | mem sg base i c disp acc =>
      simp only [List.map_cons, moveOp]
      refine Carries.assert (fun h => h) ?_
      refine Carries.bind (Carries.deref (g := rebaseElfRel m.dist) ?_) (fun rel hrel => ?_)
      · rw [show (moveInsn env m.dist x.insn).address = x.insn.address + m.dist from rfl,
          show (moveInsn env m.dist x.insn).size = x.insn.size from rfl, add_swap m.dist, add_swap m.dist]
        exact find_shift (fun _ _ => rfl) _
      · rw [show (rebaseElfRel m.dist rel).symbol = rel.symbol.map (rebaseRelSym m.dist) from rfl]
        cases rel.symbol with
        | none => exact Carries.ok rfl hf
        | some sym =>
          dsimp only [Option.map_some]
          rw [show (rebaseFind m f).symbols = f.symbols.map (rebaseSymbol m.tls m.dist) from rfl,
            show (rebaseFind m f).start = f.start + m.dist from rfl, find_shift (fun _ _ => rfl)]
          cases Tree.find f.symbols f.start with
          | some s =>
            dsimp only [Option.map_some]
            refine Carries.ok ?_ ⟨?_, hf.branch, hf.start, hf.order⟩
            · rw [modify_shift (g := rebaseSymbol m.tls m.dist) (f := fun s => { s with name := sym.name }) (fun _ _ => rfl) (fun _ _ _ => rfl)]
              rfl
            · intro y hy
              unfold Tree.modify at hy
              obtain ⟨z, hz, rfl⟩ := List.mem_map.mp hy
              have := hf.symbols z hz
              split
              · exact ⟨this.address, this.size, this.sec, this.deps, this.refs, this.rels⟩
              · exact this
          | none =>
            dsimp only [Option.map_none]
            rw [show (rebaseState m elf.sections st).sections = st.sections.map (rebaseSec m elf.sections) from rfl]
            refine Carries.bind (Carries.deref (g := rebaseSec m elf.sections) (floor_shift (sections_shift hst hlow) hf.start.2.noWrap))
              (fun sec hsec => ?_)
            have hl := hst.sections sec (Tree.floor_mem hsec)
            have hs := hlow sec hl.1 hl.2.1
            have hlt := hf.start.2
            have hlv := hs.start.2
            unfold Low at hlt hlv
            have htls : sec.tls = false := by
              have h1 : (TLS.trans_addr sec.virt_addr sec.tls).toNat ≤ f.start.toNat := BitVec.le_def.mp (Tree.floor_le hsec)
              rw [trans_toNat _ (by omega)] at h1
              cases hb : sec.tls with
              | false => rfl
              | true => rw [hb] at h1; simp only [if_true] at h1; omega
            have hord := hf.order
            have hsize : TLS.trans_addr (x.address - f.start) sec.tls = x.address - f.start := by rw [htls, TLS.trans_false]
            have hsub : (x.address - f.start).toNat < 2 ^ 51 := by
              rw [BitVec.toNat_sub_of_le (BitVec.le_def.mpr (by omega))]; omega
            have hgood : GoodArgs m.tls m.dist { plainArgs sec f.start with
                size := TLS.trans_addr (x.address - f.start) sec.tls, name := sym.name } :=
              ⟨⟨f.start, false, hf.start, (fun h => by cases h), (TLS.trans_false _).symm⟩, by rw [hsize]; exact hsub, Or.inr hs.start⟩
            have hargs : ({ plainArgs (rebaseSec m elf.sections sec) (f.start + m.dist) with
                size := TLS.trans_addr (x.address + m.dist - (f.start + m.dist)) (rebaseSec m elf.sections sec).tls,
                name := (rebaseRelSym m.dist sym).name } : InsertArgs) = rebaseArgs m.dist { plainArgs sec f.start with
                size := TLS.trans_addr (x.address - f.start) sec.tls, name := sym.name } := by
              rw [sub_shift, ← plain_rebase elf.sections hl.2.1 hs.start]
              rfl
            rw [hargs]
            refine Carries.ok ?_ ⟨?_, hf.branch, hf.start, hf.order⟩
            · rw [show newSymbol (rebaseArgs m.dist { plainArgs sec f.start with
                  size := TLS.trans_addr (x.address - f.start) sec.tls, name := sym.name }) = rebaseSymbol m.tls m.dist (newSymbol
                  { plainArgs sec f.start with size := TLS.trans_addr (x.address - f.start) sec.tls, name := sym.name }) from rfl,
                insert_shift (symbol_shifts hgood.address.lowT) (goodSyms_shift hf.symbols)]
              rfl
            · intro y hy
              rcases Tree.mem_insert.mp hy with hy | ⟨rfl, _⟩
              · exact hf.symbols y hy
              · exact newSymbol_good hgood
    | _ => exact hno

theorem findInsn_rebase {env : Env} (hlow : ∀ sec ∈ elf.sections, sec.allocate = true → SectionLow env m sec) (hst : GoodState m elf rels packed st)
    {sec : ElfSec} (hl : Loaded elf sec) {x : Step} (ha : Addressed m.dist x.insn.address) (h : TargetsLow env m.dist x)
    (hn : x.insn.address.toNat ≤ x.address.toNat) (hb : x.address.toNat < 2 ^ 51) {plt : Bool} {f : FindState} (hf : GoodFind m x.insn.address.toNat f) :
    Carries (rebaseFind m) (GoodFind m x.insn.address.toNat) (findInsn env st sec plt f x)
      (findInsn (rebaseEnv m.dist env) (rebaseState m elf.sections st) (rebaseSec m elf.sections sec) plt (rebaseFind m f) (moveStep env m.dist x)) := by
  unfold findInsn
  refine Carries.ite Iff.rfl (fun _ => Carries.ok rfl hf) (fun _ => ?_)
  have hs := hlow sec hl.1 hl.2.1
  refine Carries.bind (findStart_rebase elf.sections hl.2.1 hs.start hs.tls ha (Nat.le_refl _) hf) (fun f' hf' => ?_)
  rw [show (moveStep env m.dist x).insn.groups = x.insn.groups.map id from (List.map_id _).symm]
  refine Carries.foldlM (k := id) (fun g hg f2 hf2 => ?_) hf'
  cases g with
  | ret => exact Carries.ok rfl ⟨hf2.symbols, hf2.branch, hf2.start, hf2.order⟩
  | iret => exact Carries.ok rfl ⟨hf2.symbols, hf2.branch, hf2.start, hf2.order⟩
  | other => exact Carries.ok rfl hf2
  | call => exact findCall_rebase hlow hst hg h hf2
  | jump =>
    show Carries _ _ (findJump env.build st plt x.insn x.address f2) (findJump env.build _ plt (moveInsn env m.dist x.insn) _ (rebaseFind m f2))
    unfold findJump
    refine Carries.ite Iff.rfl (fun _ => nameImport_rebase hlow hst hn hb hf2) (fun _ => ?_)
    refine Carries.bind (directTarget_move (Or.inl hg) h) (fun o ho => ?_)
    cases o with
    | none => exact Carries.ok rfl hf2
    | some t =>
      have ht := ho t rfl
      dsimp only [Option.map_some]
      have hc : (t + m.dist > (rebaseFind m f2).max_branch) ↔ t > f2.max_branch := add_lt_iff hf2.branch.noWrap ht.2.noWrap
      by_cases hcc : t > f2.max_branch
      · rw [if_pos hcc, if_pos (hc.mpr hcc)]; exact Carries.ok rfl ⟨hf2.symbols, ht.2, hf2.start, hf2.order⟩
      · rw [if_neg hcc, if_neg (fun h => hcc (hc.mp h))]; exact Carries.ok rfl hf2

theorem disasmN_place {env : Env} (hp : ∀ a bytes i, env.decode a bytes = some i → i.address = a) (n : Nat) (a : Addr) (bytes : List (BitVec 8))
    (h : a.toNat + bytes.length < 2 ^ 64) :
    ∀ s ∈ disasmN env n a bytes, a.toNat ≤ s.insn.address.toNat ∧ s.insn.address.toNat + s.insn.size = s.address.toNat ∧ 0 < s.insn.size ∧
      s.address.toNat ≤ a.toNat + bytes.length := by
  induction n generalizing a bytes with
  | zero => intro s hs; cases hs
  | succ n ih =>
    intro s hs
    unfold disasmN at hs
    cases hd : env.decode a bytes with
    | none => rw [hd] at hs; cases hs
    | some i =>
      rw [hd] at hs
      simp only at hs
      by_cases hc : 0 < i.size ∧ i.size ≤ bytes.length
      · rw [if_pos hc] at hs
        have hi : (a + BitVec.ofNat 64 i.size).toNat = a.toNat + i.size := by
          rw [BitVec.toNat_add, BitVec.toNat_ofNat]
          omega
        rcases List.mem_cons.mp hs with rfl | hs
        · simp only
          rw [hp a bytes i hd]
          omega
        · have := ih (a + BitVec.ofNat 64 i.size) (bytes.drop i.size) (by rw [List.length_drop]; omega) s hs
          rw [List.length_drop] at this
          omega
      · rw [if_neg hc] at hs; cases hs

theorem disasmN_pairwise {env : Env} (hp : ∀ a bytes i, env.decode a bytes = some i → i.address = a) (n : Nat) (a : Addr) (bytes : List (BitVec 8))
    (h : a.toNat + bytes.length < 2 ^ 64) :
    (disasmN env n a bytes).Pairwise (fun x y => x.insn.address.toNat ≤ y.insn.address.toNat) := by
  induction n generalizing a bytes with
  | zero => exact List.Pairwise.nil
  | succ n ih =>
    unfold disasmN
    cases hd : env.decode a bytes with
    | none => exact List.Pairwise.nil
    | some i =>
      simp only
      by_cases hc : 0 < i.size ∧ i.size ≤ bytes.length
      · rw [if_pos hc]
        have hi : (a + BitVec.ofNat 64 i.size).toNat = a.toNat + i.size := by
          rw [BitVec.toNat_add, BitVec.toNat_ofNat]
          omega
        have hlen : (a + BitVec.ofNat 64 i.size).toNat + (bytes.drop i.size).length < 2 ^ 64 := by rw [List.length_drop]; omega
        refine List.Pairwise.cons (fun y hy => ?_) (ih _ _ hlen)
        have := (disasmN_place hp n _ _ hlen y hy).1
        simp only
        rw [hp a bytes i hd]
        omega
      · rw [if_neg hc]; exact List.Pairwise.nil

/-- Folds over elements in order. -/
theorem Carries.foldlM_sorted {α β σ σ' : Type} {g : σ → σ'} {v : α → Nat} {P : Nat → σ → Prop} {f : σ → α → M σ} {f' : σ' → β → M σ'}
    {k : α → β} {l : List α} (h : ∀ x ∈ l, ∀ s, P (v x) s → Carries g (P (v x)) (f s x) (f' (g s) (k x)))
    (hm : ∀ a b s, a ≤ b → P a s → P b s) (hl : l.Pairwise (fun x y => v x ≤ v y)) {n : Nat} {s : σ} (hn : ∀ x ∈ l, n ≤ v x) (hs : P n s) :
    Carries g (fun s => ∃ n, P n s) (l.foldlM f s) ((l.map k).foldlM f' (g s)) := by
  induction l generalizing n s with
  | nil => exact Carries.ok rfl ⟨n, hs⟩
  | cons x l ih =>
    rw [List.map_cons, List.foldlM_cons, List.foldlM_cons]
    obtain ⟨h1, h2⟩ := List.pairwise_cons.mp hl
    exact Carries.bind (h x List.mem_cons_self s (hm _ _ _ (hn x List.mem_cons_self) hs))
      (fun s' hs' => ih (fun y hy => h y (List.mem_cons_of_mem _ hy)) h2 h1 hs')

theorem disasm_rebase (k : Addr) (env : Env) (a : Addr) (bytes : List (BitVec 8)) :
    disasm (rebaseEnv k env) a bytes = disasm env a bytes := by
  unfold disasm
  generalize bytes.length = n
  induction n generalizing a bytes with
  | zero => rfl
  | succ n ih =>
    simp only [disasmN, ih]
    rfl

theorem findSection_rebase {env : Env} {fl : AnalyzeFlags} {dbg : Option Elf} (hr : Rebasable env fl m elf dbg) (hst : GoodState m elf rels packed st)
    {sec : ElfSec} (hl : Loaded elf sec) {t : SymTree} (ht : ∀ s ∈ t, GoodSym m.tls m.dist s) :
    Carries (List.map (rebaseSymbol m.tls m.dist)) (fun t => ∀ s ∈ t, GoodSym m.tls m.dist s) (findSection env fl st t sec)
      (findSection (rebaseEnv m.dist env) fl (rebaseState m elf.sections st) (t.map (rebaseSymbol m.tls m.dist)) (rebaseSec m elf.sections sec)) := by
  have hs := hr.sections sec hl.1 hl.2.1
  unfold findSection
  have hins := insertSymbol_rebase (b := env.build) ht (plain_good (t := .hiproc) (hs.start.trans hs.tls) hs.start)
  rw [plain_rebase elf.sections hl.2.1 hs.start, ← hs.start.2.trans] at hins
  rw [show (rebaseEnv m.dist env).build = env.build from rfl, sec_virt elf.sections hl.2.1]
  refine Carries.bind hins (fun t' ht' => ?_)
  refine Carries.ite Iff.rfl (fun hx => ?_) (fun _ => Carries.ok rfl ht')
  obtain ⟨hc1, hc2, hc3⟩ := hr.code sec hl hx
  refine Carries.bind (g := id) (P := fun bytes => bytes = sec.data.take sec.size.toNat ∧ bytes.length = sec.size.toNat) ?_ (fun bytes hb => ?_)
  · intro bytes hb
    have hlen := readBytes_length hb
    unfold readBytes at hb ⊢
    rw [show (rebaseSec m elf.sections sec).data = m.data sec from rfl, hr.length sec hl, show (rebaseSec m elf.sections sec).size = sec.size from rfl]
    have e : (m.data sec).take sec.size.toNat = sec.data.take sec.size.toNat := by
      have := congrArg (List.take sec.size.toNat) hc1
      rw [List.take_take, List.take_take, Nat.min_eq_left hc2] at this
      exact this
    split at hb
    · rename_i hc
      cases hb
      rw [if_pos hc]
      rw [show BitVec.toNat (0 : Addr) = 0 from rfl, List.drop_zero, List.drop_zero, e]
      exact ⟨rfl, rfl, by simpa using hlen⟩
    · cases hb
  · obtain ⟨rfl, hlen⟩ := hb
    rw [disasm_rebase, show namesPlt fl (rebaseSec m elf.sections sec) = namesPlt fl sec from rfl]
    have hmove : disasm env (sec.virt_addr + m.dist) (sec.data.take sec.size.toNat) =
        (disasm env sec.virt_addr (sec.data.take sec.size.toNat)).map (moveStep env m.dist) := disasmN_move hr.decode _ _ _
    dsimp only [id]
    rw [hmove]
    have hrng := hs.range
    unfold LowRange at hrng
    have hbound : sec.virt_addr.toNat + (sec.data.take sec.size.toNat).length < 2 ^ 64 := by rw [hlen]; omega
    have hpl : ∀ x ∈ disasm env sec.virt_addr (sec.data.take sec.size.toNat), _ := disasmN_place hr.place _ sec.virt_addr _ hbound
    rw [hlen] at hpl
    refine Carries.bind (g := rebaseFind m) (P := fun f => ∃ n, GoodFind m n f) ?_ (fun f ⟨_, hf⟩ => Carries.ok rfl hf.symbols)
    refine Carries.foldlM_sorted (f := findInsn env st sec (namesPlt fl sec)) (k := moveStep env m.dist) (v := fun x => x.insn.address.toNat)
      (P := GoodFind m) (fun x hx f hf => ?_) (fun _ _ _ hle h => h.mono hle) (disasmN_pairwise hr.place _ _ _ hbound)
      (n := sec.virt_addr.toNat) (fun x hx => (hpl x hx).1)
      (s := { symbols := t', start := sec.virt_addr, max_branch := sec.virt_addr }) ⟨ht', hs.start.2, hs.start, Nat.le_refl _⟩
    have hpl := hpl x hx
    refine findInsn_rebase hr.sections hst hl ⟨fun e => ?_, ?_⟩ (hc3 x hx) (by omega) (by omega) hf
    · rw [e, show BitVec.toNat (0 : Addr) = 0 from rfl] at hpl
      exact hs.start.1 (BitVec.eq_of_toNat_eq (by rw [show BitVec.toNat (0 : Addr) = 0 from rfl]; omega))
    · unfold Low; omega

theorem findFunctions_rebase {env : Env} {fl : AnalyzeFlags} {dbg : Option Elf} (hr : Rebasable env fl m elf dbg)
    (h : GoodMid m elf rels packed st) :
    Carries (rebaseState m elf.sections) (GoodMid m elf rels packed) (findFunctions env fl st)
      (findFunctions (rebaseEnv m.dist env) fl (rebaseState m elf.sections st)) := by
  unfold findFunctions
  refine Carries.bind (g := List.map (rebaseSymbol m.tls m.dist)) (P := fun t => ∀ s ∈ t, GoodSym m.tls m.dist s) ?_ (fun t ht => Carries.ok rfl ?_)
  · exact Carries.foldlM (f := findSection env fl st) (k := rebaseSec m elf.sections)
      (fun sec hs t ht => findSection_rebase hr h.read.1 (h.read.1.sections sec hs) ht) h.read.1.symbols
  · exact ⟨⟨⟨ht, h.read.1.sections, h.read.1.relocations, h.read.1.relative, h.read.1.flags, h.read.1.got⟩, h.read.2⟩, h.all⟩

/-! ### Flags -/

theorem regionFlag_rebase {f : SectionFlag} {s : Symbol} (hs : GoodSym m.tls m.dist s) (hf : GoodFlag m.dist f) :
    regionFlag (rebaseSymbol m.tls m.dist s) { f with start := f.start + m.dist } = rebaseSymbol m.tls m.dist (regionFlag s f) ∧
      GoodSym m.tls m.dist (regionFlag s f) := by
  unfold regionFlag
  have h1 : (s.address + m.dist ≥ f.start + m.dist) ↔ s.address ≥ f.start := add_le_iff hf.start.noWrap hs.address.lowT.noWrap
  have h2 : (s.address + m.dist + s.size < f.start + m.dist + f.size) ↔ s.address + s.size < f.start + f.size := by
    rw [add_swap m.dist, add_swap m.dist]
    refine add_lt_iff ?_ ?_
    · have := hs.address.lowT.lt
      have := hs.size
      unfold NoOver; rw [BitVec.toNat_add]; omega
    · have := hf.start
      have := hf.size
      unfold Low at *
      unfold NoOver; rw [BitVec.toNat_add]; omega
  by_cases hc : s.address ≥ f.start ∧ s.address + s.size < f.start + f.size
  · rw [if_pos hc]
    refine ⟨if_pos (c := (s.address + m.dist ≥ f.start + m.dist) ∧ (s.address + m.dist + s.size < f.start + m.dist + f.size)) ⟨h1.mpr hc.1, h2.mpr hc.2⟩,
      ⟨hs.address, hs.size, hs.sec, hs.deps, hs.refs, hs.rels⟩⟩
  · rw [if_neg hc]
    exact ⟨if_neg (c := (s.address + m.dist ≥ f.start + m.dist) ∧ (s.address + m.dist + s.size < f.start + m.dist + f.size)) (fun h => hc ⟨h1.mp h.1, h2.mp h.2⟩), hs⟩

theorem regionFlags_rebase {l : List SectionFlag} {s : Symbol} (hs : GoodSym m.tls m.dist s) (hl : ∀ f ∈ l, GoodFlag m.dist f) :
    (l.map (fun f => { f with start := f.start + m.dist })).foldl regionFlag (rebaseSymbol m.tls m.dist s) =
      rebaseSymbol m.tls m.dist (l.foldl regionFlag s) ∧ GoodSym m.tls m.dist (l.foldl regionFlag s) := by
  induction l generalizing s with
  | nil => exact ⟨rfl, hs⟩
  | cons f l ih =>
    obtain ⟨e, hg⟩ := regionFlag_rebase hs (hl f List.mem_cons_self)
    rw [List.map_cons, List.foldl_cons, List.foldl_cons, e]
    exact ih hg (fun x hx => hl x (List.mem_cons_of_mem _ hx))

theorem flagSymbol_rebase {l : List SectionFlag} {s : Symbol} (hs : GoodSym m.tls m.dist s) (hl : ∀ f ∈ l, GoodFlag m.dist f) :
    flagSymbol (l.map (fun f => { f with start := f.start + m.dist })) (rebaseSymbol m.tls m.dist s) =
      rebaseSymbol m.tls m.dist (flagSymbol l s) ∧ GoodSym m.tls m.dist (flagSymbol l s) := by
  unfold flagSymbol
  dsimp only
  rw [show (rebaseSymbol m.tls m.dist s).sec.name = s.sec.name from rfl, show (rebaseSymbol m.tls m.dist s).sec.executable = s.sec.executable from rfl]
  have h' : GoodSym m.tls m.dist { s with flags := s.flags ||| SYMBOL_TRAMPOLINE } := ⟨hs.address, hs.size, hs.sec, hs.deps, hs.refs, hs.rels⟩
  split
  · exact regionFlags_rebase h' hl
  · split
    · exact regionFlags_rebase h' hl
    · exact regionFlags_rebase hs hl

theorem addFlags_rebase {entry : Addr} {l : List SectionFlag} {t : SymTree} (ht : ∀ s ∈ t, GoodSym m.tls m.dist s) (hl : ∀ f ∈ l, GoodFlag m.dist f) :
    addFlags (entry + m.dist) (l.map (fun f => { f with start := f.start + m.dist })) (t.map (rebaseSymbol m.tls m.dist)) =
      (addFlags entry l t).map (rebaseSymbol m.tls m.dist) ∧ ∀ s ∈ addFlags entry l t, GoodSym m.tls m.dist s := by
  unfold addFlags
  rw [modify_shift (g := rebaseSymbol m.tls m.dist) (f := fun s => { s with flags := s.flags ||| SYMBOL_ENTRY }) (fun _ _ => rfl) (fun _ _ _ => rfl)]
  have hg : ∀ s ∈ Tree.modify t entry (fun s => { s with flags := s.flags ||| SYMBOL_ENTRY }), GoodSym m.tls m.dist s := by
    intro s hs
    unfold Tree.modify at hs
    obtain ⟨y, hy, rfl⟩ := List.mem_map.mp hs
    have := ht y hy
    split
    · exact ⟨this.address, this.size, this.sec, this.deps, this.refs, this.rels⟩
    · exact this
  constructor
  · rw [List.map_map, List.map_map]
    exact List.map_congr_left fun s hs => (flagSymbol_rebase (hg s hs) hl).1
  · intro s hs
    obtain ⟨y, hy, rfl⟩ := List.mem_map.mp hs
    exact (flagSymbol_rebase (hg y hy) hl).2

theorem gather_rebase {env : Env} {fl : AnalyzeFlags} {dbg : Option Elf} (hr : Rebasable env fl m elf dbg) :
    Carries (rebaseState m elf.sections) (GoodMid m elf (allRelocations elf dbg) (allRelative elf dbg)) (gather env fl elf dbg)
      (gather (rebaseEnv m.dist env) fl (rebaseElf m elf) (dbg.map (rebaseElf m))) := by
  have h0 : GoodState m elf (allRelocations elf dbg) (allRelative elf dbg) {} :=
    ⟨(fun _ h => by cases h), (fun _ h => by cases h), (fun _ h => by cases h), (fun _ h => by cases h), (fun _ h => by cases h), Or.inl rfl⟩
  unfold gather
  refine Carries.bind (g := rebaseState m elf.sections) ((readSegments_rebase (secs := elf.sections) h0 hr.segments).also (Q := fun s => s.tls_segment = tlsSegment elf ∧ s.sections = []) ?_) (fun s1 hs1 => ?_)
  · intro s1 h1
    refine ⟨?_, (readSegments_read h1).sections⟩
    have : (filePart s1).tls = _ := congrArg FilePart.tls ((readSegments_part h1).trans (segParts_closed _ _))
    exact this.trans (last_some _)
  refine Carries.bind (g := rebaseState m elf.sections) ((readSections_rebase (add := true) hr ⟨hs1.1, hs1.2.1⟩ (Or.inl rfl) (fun _ => rfl)).also
    (Q := fun s => s.sections = Tree.ofList (loadedSections elf.sections)) ?_) (fun s2 hs2 => ?_)
  · intro s2 h2
    have := (readSections_read h2).sections
    rw [if_pos rfl, hs1.2.2] at this
    exact this
  refine Carries.bind (g := rebaseState m elf.sections) ((readDebug_rebase hr hs2.1).also
    (Q := fun s => s.sections = Tree.ofList (loadedSections elf.sections)) ?_) (fun s3 hs3 => ?_)
  · intro s3 h3
    cases dbg with
    | none => cases h3; exact hs2.2
    | some d =>
      have := (readSections_read h3).sections
      rw [if_neg (by decide)] at this
      rw [this, hs2.2]
  refine Carries.bind (readTargets_rebase hr ⟨hs3.1, hs3.2⟩) (fun s4 hs4 => ?_)
  refine Carries.bind (findFunctions_rebase hr hs4) (fun s5 hs5 => ?_)
  obtain ⟨e, hg⟩ := addFlags_rebase (entry := elf.entry) hs5.read.1.symbols hs5.read.1.flags
  refine Carries.ok ?_ ⟨⟨⟨hg, hs5.read.1.sections, hs5.read.1.relocations, hs5.read.1.relative, hs5.read.1.flags, hs5.read.1.got⟩, hs5.read.2⟩, hs5.all⟩
  show ({ rebaseState m elf.sections s5 with symbols := addFlags (elf.entry + m.dist) (s5.section_flags.map (fun f => { f with start := f.start + m.dist })) (s5.symbols.map (rebaseSymbol m.tls m.dist)) } : AState) = _
  rw [e]
  rfl

end Bean

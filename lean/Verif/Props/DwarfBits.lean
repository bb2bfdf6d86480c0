import Verif.Model.DwarfBits
import Verif.Props.DwarfHash
import Verif.Props.DwarfDefs
/-
C87 for bit-fields.
-/
namespace Bean.Props

open Bean Spec

theorem bitStruct_same (others : Dies) (size : Int) (fs fs' : List BitMember) (h : fs.map (fun f => (f.name, f.type)) = fs'.map (fun f => (f.name, f.type))) :
    bitStruct others size fs = bitStruct others size fs' := by
  have hl : fs.length = fs'.length := by
    have := congrArg List.length h
    rwa [List.length_map, List.length_map] at this
  have hd : fs.map bitDie = fs'.map bitDie := by
    have key : ∀ l : List BitMember, l.map bitDie = (l.map (fun f => (f.name, f.type))).map (fun p => ({ tag := "member".toList, name := some p.1, type := some p.2 } : Die)) := by
      intro l
      rw [List.map_map]
      rfl
    rw [key, key, h]
  funext i
  unfold bitStruct
  rw [hl, ← List.getElem?_map, ← List.getElem?_map, hd]

/-- C87 is false for bit-fields: neither the type (with its hash) nor the definition depends on the number of bits and their offsets, whatever the options, so that fields may
change their size and overlap with others without being noticed. -/
theorem C87_bits_counterexample (others : Dies) (size : Int) (fs fs' : List BitMember) (h : fs.map (fun f => (f.name, f.type)) = fs'.map (fun f => (f.name, f.type))) (o : TypeOpts) :
    (∀ r t, HasType o (bitStruct others size fs) 1 r t ↔ HasType o (bitStruct others size fs') 1 r t) ∧
    ∀ n m ids, iterGlobals o (bitStruct others size fs) n m ids = iterGlobals o (bitStruct others size fs') n m ids := by
  rw [bitStruct_same others size fs fs' h]
  exact ⟨fun _ _ => Iff.rfl, fun _ _ _ => rfl⟩

/-- `struct flags { unsigned a : 3; unsigned b : 5; }`, and the same with `a : 5` and `b : 3`. -/
def exBits (k : Nat) : List BitMember := [{ name := "a".toList, type := 0, bits := k, offset := 0 }, { name := "b".toList, type := 0, bits := 8 - k, offset := k }]

/-- The type of the fields. -/
def exBitType : Dies := fun i => if i = 0 then some { tag := "base_type".toList, name := some "unsigned".toList, byte_size := some 4, encoding := some "unsigned".toList } else none

example : exBits 3 ≠ exBits 5 ∧ (exBits 3).map (fun f => (f.name, f.type)) = (exBits 5).map (fun f => (f.name, f.type)) ∧
    shownDefs (iterGlobals exDefOpts (bitStruct exBitType 4 (exBits 3)) 9 (fun _ => none) [0, 1, 2, 3]) = [("struct flags { unsigned a; unsigned b; }", 4)] := by decide +kernel

example : ∃ t, HasType exDefOpts (bitStruct exBitType 4 (exBits 3)) 1 true t ∧ t.size = 4 := ⟨_, ⟨5, rfl⟩, rfl⟩

end Bean.Props

import Verif.Base
/-! Bit-level helper lemmas. -/
set_option linter.unusedSimpArgs false
namespace Ebpf

theorem put16_length (bo : ByteOrder) (x) : (bo.put16 x).length = 2 := by cases bo <;> rfl
theorem put32_length (bo : ByteOrder) (x) : (bo.put32 x).length = 4 := by cases bo <;> rfl
theorem put64_length (bo : ByteOrder) (x) : (bo.put64 x).length = 8 := by cases bo <;> rfl

theorem get16_put16 (bo : ByteOrder) (x : BitVec 16) :
    ∃ a b, bo.put16 x = [a, b] ∧ bo.get16 a b = x := by
  cases bo
  · refine ⟨_, _, rfl, ?_⟩
    simp only [ByteOrder.get16]; ext i hi; simp [BitVec.getElem_append]; grind
  · refine ⟨_, _, rfl, ?_⟩
    simp only [ByteOrder.get16]; ext i hi; simp [BitVec.getElem_append]; grind

theorem get32_put32 (bo : ByteOrder) (x : BitVec 32) :
    ∃ a b c d, bo.put32 x = [a, b, c, d] ∧ bo.get32 a b c d = x := by
  cases bo
  · refine ⟨_, _, _, _, rfl, ?_⟩
    simp only [ByteOrder.get32]; ext i hi; simp [BitVec.getElem_append]; grind
  · refine ⟨_, _, _, _, rfl, ?_⟩
    simp only [ByteOrder.get32]; ext i hi; simp [BitVec.getElem_append]; grind

theorem put16_get16 (bo : ByteOrder) (a b : Byte) : bo.put16 (bo.get16 a b) = [a, b] := by
  cases bo <;>
  · simp only [ByteOrder.get16, ByteOrder.put16, List.cons.injEq, and_true]
    refine ⟨?_, ?_⟩ <;> (ext i hi; simp [BitVec.getElem_append, BitVec.getLsbD_append]; try grind)

theorem put32_get32 (bo : ByteOrder) (a b c d : Byte) :
    bo.put32 (bo.get32 a b c d) = [a, b, c, d] := by
  cases bo <;>
  · simp only [ByteOrder.get32, ByteOrder.put32, List.cons.injEq, and_true]
    refine ⟨?_, ?_, ?_, ?_⟩ <;> (ext i hi; simp [BitVec.getElem_append, BitVec.getLsbD_append]; try grind)

/-- Writing a field: the masked value reads back. -/
theorem field_get {w} (op m k : BitVec w) (h : m &&& ~~~k = 0) :
    ((op &&& ~~~k) ||| m) &&& k = m := by
  ext i hi
  have h' : (m &&& ~~~k)[i] = (0 : BitVec w)[i] := by rw [h]
  simp at h' ⊢
  cases hm : m[i] <;> cases hk : k[i] <;> simp_all

/-- Writing a field leaves disjoint fields alone. -/
theorem field_other {w} (op m k k' : BitVec w) (h : m &&& ~~~k = 0) (hd : k &&& k' = 0) :
    ((op &&& ~~~k) ||| m) &&& k' = op &&& k' := by
  ext i hi
  have h' : (m &&& ~~~k)[i] = (0 : BitVec w)[i] := by rw [h]
  have h'' : (k &&& k')[i] = (0 : BitVec w)[i] := by rw [hd]
  simp at h' h'' ⊢
  cases hm : m[i] <;> cases hk : k[i] <;> simp_all

end Ebpf

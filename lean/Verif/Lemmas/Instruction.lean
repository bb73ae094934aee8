import Verif.Model.Instruction
import Verif.Lemmas.Bits
/-! Helper lemmas for the instruction codec. -/
set_option linter.unusedSimpArgs false
namespace Ebpf.Asm
open OpCode

theorem newRegs_split (bo : ByteOrder) (r : Byte) :
    newBPFRegisters bo (splitRegs bo r).1 (splitRegs bo r).2 = r := by
  revert r
  cases bo <;> decide +kernel

theorem split_newRegs (bo : ByteOrder) (d s : Byte) (hd : d.toNat < 16) (hs : s.toNat < 16) :
    splitRegs bo (newBPFRegisters bo d s) = (d, s) := by
  have key : ∀ a b : BitVec 4,
      splitRegs bo (newBPFRegisters bo (a.setWidth 8) (b.setWidth 8)) = (a.setWidth 8, b.setWidth 8) := by
    cases bo <;> decide +kernel
  have hd' : d = (d.setWidth 4).setWidth 8 := by
    apply BitVec.eq_of_toNat_eq; simp; omega
  have hs' : s = (s.setWidth 4).setWidth 8 := by
    apply BitVec.eq_of_toNat_eq; simp; omega
  rw [hd', hs']; exact key _ _

theorem bpfOpCode_byte : ∀ o : BitVec 8, bpfOpCode (o.setWidth 32) = some o := by decide +kernel

theorem byte_ne_invalid : ∀ o : BitVec 8, o.setWidth 32 ≠ InvalidOpCode := by decide +kernel

/-- The extended operation `e` of base operation `b` can be folded into opcode `op` and back. -/
abbrev ExtOK (op : OpCode) (b e : BitVec 16) : Prop :=
  clsIsALU (cls (setALUOp op e)) = true ∧ aluOp (setALUOp op e) = e
      ∧ setALUOp (setALUOp op e) b = op ∧ setALUOp op e ≠ InvalidOpCode
      ∧ jumpOp (setALUOp op e) ≠ Call ∧ isDWordLoad (setALUOp op e) = false

/-- Everything the codec does with ALU opcodes, for each of the 256 opcode bytes. -/
theorem alu_facts1 : ∀ o : BitVec 8, clsIsALU (cls (o.setWidth 32)) = true →
    aluOp (o.setWidth 32) = Div → ExtOK (o.setWidth 32) Div SDiv := by decide +kernel
theorem alu_facts2 : ∀ o : BitVec 8, clsIsALU (cls (o.setWidth 32)) = true →
    aluOp (o.setWidth 32) = Mod → ExtOK (o.setWidth 32) Mod SMod := by decide +kernel
theorem alu_facts3 : ∀ o : BitVec 8, clsIsALU (cls (o.setWidth 32)) = true →
    aluOp (o.setWidth 32) = Mov → ExtOK (o.setWidth 32) Mov MovSX8 := by decide +kernel
theorem alu_facts4 : ∀ o : BitVec 8, clsIsALU (cls (o.setWidth 32)) = true →
    aluOp (o.setWidth 32) = Mov → ExtOK (o.setWidth 32) Mov MovSX16 := by decide +kernel
theorem alu_facts5 : ∀ o : BitVec 8, clsIsALU (cls (o.setWidth 32)) = true →
    aluOp (o.setWidth 32) = Mov → ExtOK (o.setWidth 32) Mov MovSX32 := by decide +kernel
theorem alu_facts6 : ∀ o : BitVec 8, clsIsALU (cls (o.setWidth 32)) = true →
    aluOp (o.setWidth 32) ≠ SDiv ∧ aluOp (o.setWidth 32) ≠ SMod ∧ aluOp (o.setWidth 32) ≠ MovSX8
      ∧ aluOp (o.setWidth 32) ≠ MovSX16 ∧ aluOp (o.setWidth 32) ≠ MovSX32 := by decide +kernel
theorem alu_facts7 : ∀ o : BitVec 8, clsIsALU (cls (o.setWidth 32)) = true →
    jumpOp (o.setWidth 32) ≠ Call ∧ isDWordLoad (o.setWidth 32) = false := by decide +kernel

/-- An opcode byte has no atomic bits. -/
theorem byte_not_atomic : ∀ o : BitVec 8, (o.setWidth 32 : BitVec 32) &&& ~~~atomicMask = o.setWidth 32 := by
  decide +kernel

/-- Atomic opcodes: merging arbitrary atomic bits into one of the 256 opcode bytes and clearing
them again. -/
theorem atomic_facts (o : BitVec 8) (a : BitVec 32) (ha : a &&& ~~~atomicMask = 0)
    (h1 : cls (o.setWidth 32) = StXClass) (h2 : mode (o.setWidth 32) = AtomicMode) :
    let op := o.setWidth 32 ||| a
    cls op = StXClass ∧ mode op = AtomicMode ∧ atomicOp op = a ∧ op &&& ~~~atomicMask = o.setWidth 32
    ∧ isDWordLoad op = false ∧ jumpOp op = InvalidJumpOp ∧ clsIsALU (cls op) = false ∧ op ≠ InvalidOpCode := by
  have hcl : (o.setWidth 32) &&& atomicMask = 0 := by revert o; decide +kernel
  have hab : a &&& atomicMask = a := by
    ext i hi
    have h' : (a &&& ~~~atomicMask)[i] = (0 : BitVec 32)[i] := by rw [ha]
    simp only [BitVec.getElem_and, BitVec.getElem_not] at h' ⊢
    cases hm : a[i] <;> cases hk : atomicMask[i] <;> simp_all
  have hac : a &&& classMask = 0 := by
    rw [← hab, BitVec.and_assoc]; have : atomicMask &&& classMask = 0 := by decide
    rw [this]; simp
  have ham : a &&& modeMask = 0 := by
    rw [← hab, BitVec.and_assoc]; have : atomicMask &&& modeMask = 0 := by decide
    rw [this]; simp
  have distr : ∀ k : BitVec 32, (o.setWidth 32 ||| a) &&& k = (o.setWidth 32 &&& k) ||| (a &&& k) := by
    intro k; ext i hi; simp only [BitVec.getElem_and, BitVec.getElem_or]; cases k[i] <;> simp
  intro op
  have hc : cls op = StXClass := by
    show ((o.setWidth 32 ||| a) &&& classMask).setWidth 8 = _
    rw [distr, hac]
    have : (o.setWidth 32 &&& classMask) ||| 0 = o.setWidth 32 &&& classMask := BitVec.or_zero
    rw [this]; exact h1
  have hls : clsIsLoadOrStore StXClass = true := by decide
  have hm : mode op = AtomicMode := by
    unfold mode
    rw [hc, if_pos hls]
    show ((o.setWidth 32 ||| a) &&& modeMask).setWidth 8 = _
    rw [distr, ham]
    unfold mode at h2
    rw [h1, if_pos hls] at h2
    have : (o.setWidth 32 &&& modeMask) ||| 0 = o.setWidth 32 &&& modeMask := BitVec.or_zero
    rw [this]; exact h2
  have ho : op &&& ~~~atomicMask = o.setWidth 32 := by
    show (o.setWidth 32 ||| a) &&& ~~~atomicMask = _
    rw [distr, ha]
    simpa using byte_not_atomic o
  refine ⟨hc, hm, ?_, ho, ?_, ?_, ?_, ?_⟩
  · unfold atomicOp
    rw [hc, hm]
    simp only [bne_self_eq_false, Bool.or_self, Bool.false_eq_true, if_false]
    show (o.setWidth 32 ||| a) &&& atomicMask = a
    rw [distr, hcl, hab]; simp
  · unfold isDWordLoad
    rw [beq_eq_false_iff_ne]
    intro hh; rw [hh] at hc; revert hc; decide
  · unfold jumpOp; rw [hc]; rfl
  · rw [hc]; rfl
  · intro hh; rw [hh] at hc; revert hc; decide

theorem signExtend_setWidth (x : BitVec 32) : (x.signExtend 64).setWidth 32 = x := by
  apply BitVec.eq_of_getLsbD_eq
  intro i h
  have h2 : i < 64 := by omega
  simp only [BitVec.getLsbD_setWidth, BitVec.getLsbD_signExtend, h, h2]
  simp

theorem dword_lo (lo hi : BitVec 32) :
    ((hi.signExtend 64 <<< 32) ||| lo.setWidth 64).setWidth 32 = lo := by
  ext i h
  have : i < 64 := by omega
  simp [BitVec.getElem_setWidth, h, this]

theorem dword_hi (lo hi : BitVec 32) :
    (((hi.signExtend 64 <<< 32) ||| lo.setWidth 64).sshiftRight 32).setWidth 32 = hi := by
  apply BitVec.eq_of_getLsbD_eq
  intro i h
  have h0 : ¬ (64 ≤ i) := by omega
  have h1 : 32 + i < 64 := by omega
  have h2 : ¬ (32 + i < 32) := by omega
  have h3 : i < 64 := by omega
  have h4 : 32 + i - 32 = i := by omega
  have h5 : lo.getLsbD (32 + i) = false := by
    apply BitVec.getLsbD_of_ge; omega
  simp only [BitVec.getLsbD_setWidth, BitVec.getLsbD_sshiftRight, BitVec.getLsbD_or, BitVec.getLsbD_shiftLeft,
    BitVec.getLsbD_signExtend, h, h0, h1, h2, h3, h4, h5]
  simp

theorem dword_join (c : BitVec 64) :
    (((c.sshiftRight 32).setWidth 32 : BitVec 32).signExtend 64 <<< 32) ||| ((c.setWidth 32 : BitVec 32).setWidth 64) = c := by
  apply BitVec.eq_of_getLsbD_eq
  intro i h
  by_cases hi : i < 32
  · simp [hi, h, BitVec.getLsbD_sshiftRight, BitVec.getLsbD_or, BitVec.getLsbD_shiftLeft,
      BitVec.getLsbD_signExtend]
  · have e : 32 + (i - 32) = i := by omega
    have h1 : i - 32 < 32 := by omega
    have h2 : i - 32 < 64 := by omega
    have h3 : ¬ 64 ≤ i - 32 := by omega
    simp only [BitVec.getLsbD_sshiftRight, BitVec.getLsbD_or, BitVec.getLsbD_shiftLeft,
      BitVec.getLsbD_signExtend, BitVec.getLsbD_setWidth, hi, h, h1, h2, h3, e]
    simp

end Ebpf.Asm

import Verif.Model.OpCode
import Verif.Spec.OpCode
import Verif.Lemmas.Bits
/-!
# C01: opcode setters touch only their own field
-/
set_option linter.unusedSimpArgs false
namespace Ebpf.Asm
open OpCode Ebpf.Spec

/-! ## Helpers -/

/-- A mask covers exactly the bits `lo..hi`. -/
def MaskIs (k : BitVec 32) (lo hi : Nat) : Prop := ∀ i, k.getLsbD i = decide (lo ≤ i ∧ i < hi)

theorem maskIs_of_fin {k : BitVec 32} {lo hi : Nat} (hhi : hi ≤ 32)
    (h : ∀ i : Fin 32, k.getLsbD i = decide (lo ≤ i.1 ∧ i.1 < hi)) : MaskIs k lo hi := by
  intro i
  by_cases hi' : i < 32
  · exact h ⟨i, hi'⟩
  · rw [BitVec.getLsbD_of_ge _ _ (by omega)]; symm; simp; omega

theorem modeMask_is : MaskIs modeMask 5 8 := maskIs_of_fin (by decide) (by decide)
theorem sizeMask_is : MaskIs sizeMask 3 5 := maskIs_of_fin (by decide) (by decide)
theorem sourceMask_is : MaskIs sourceMask 3 4 := maskIs_of_fin (by decide) (by decide)
theorem aluMask_is : MaskIs aluMask 4 14 := maskIs_of_fin (by decide) (by decide)
theorem jumpMask_is : MaskIs jumpMask 4 8 := maskIs_of_fin (by decide) (by decide)
theorem atomicMask_is : MaskIs atomicMask 8 17 := maskIs_of_fin (by decide) (by decide)

theorem valid_iff {k : BitVec 32} {lo hi} (hk : MaskIs k lo hi) (v : BitVec 32) :
    valid v k = true ↔ FitsField lo hi v := by
  unfold valid FitsField
  rw [beq_iff_eq]
  constructor
  · intro h i hi'
    have := congrArg (fun x : BitVec 32 => x.getLsbD i) h
    have hlt : i < 32 := BitVec.lt_of_getLsbD hi'
    simp only [BitVec.getLsbD_and, BitVec.getLsbD_not, hlt, hk i, hi'] at this
    simpa using this
  · intro h
    apply BitVec.eq_of_getLsbD_eq
    intro i hi'
    simp only [BitVec.getLsbD_and, BitVec.getLsbD_not, hi', hk i]
    cases hb : v.getLsbD i
    · simp
    · have := h i hb
      simp [this]

theorem replaced_of {k : BitVec 32} {lo hi} (hk : MaskIs k lo hi) (op v : BitVec 32)
    (hv : FitsField lo hi v) : FieldReplaced lo hi op v ((op &&& ~~~k) ||| v) := by
  intro i
  by_cases hi' : i < 32
  · simp only [BitVec.getLsbD_or, BitVec.getLsbD_and, BitVec.getLsbD_not, hi', hk i]
    split
    · next h => simp [h]
    · next h =>
      have : v.getLsbD i = false := by
        cases hb : v.getLsbD i
        · rfl
        · exact absurd (hv i hb) h
      simp [this, h]
  · rw [BitVec.getLsbD_of_ge _ _ (by omega), BitVec.getLsbD_of_ge _ _ (by omega),
      BitVec.getLsbD_of_ge _ _ (by omega)]; simp

theorem cls_eq (op : OpCode) : op.cls.toNat = classOf op := by
  unfold cls classMask classOf
  simp only [BitVec.toNat_setWidth, BitVec.toNat_and, BitVec.toNat_ofNat]
  have := Nat.and_two_pow_sub_one_eq_mod op.toNat 3
  simp at this
  simp [this]; omega

theorem loadStore_iff (op : OpCode) : clsIsLoadOrStore op.cls = true ↔ classOf op < 4 := by
  rw [← cls_eq]; simp [clsIsLoadOrStore, LdClass, LdXClass, StClass, StXClass, ← BitVec.toNat_inj]; omega
theorem alu_iff (op : OpCode) : clsIsALU op.cls = true ↔ classOf op = 4 ∨ classOf op = 7 := by
  rw [← cls_eq]; simp [clsIsALU, ALUClass, ALU64Class, ← BitVec.toNat_inj]
theorem jump_iff (op : OpCode) : clsIsJump op.cls = true ↔ classOf op = 5 ∨ classOf op = 6 := by
  rw [← cls_eq]; simp [clsIsJump, JumpClass, Jump32Class, ← BitVec.toNat_inj]
theorem stx_iff (op : OpCode) : (op.cls != StXClass) = false ↔ classOf op = 3 := by
  rw [← cls_eq]; simp [StXClass, ← BitVec.toNat_inj]

/-- Replacing bits at or above position 3 keeps the class. -/
theorem cls_replaced {lo hi} {op v op' : BitVec 32} (hlo : 3 ≤ lo)
    (h : FieldReplaced lo hi op v op') : OpCode.cls op' = OpCode.cls op := by
  have hm : MaskIs classMask 0 3 := maskIs_of_fin (by decide) (by decide)
  unfold cls
  congr 1
  apply BitVec.eq_of_getLsbD_eq
  intro i hi'
  simp only [BitVec.getLsbD_and, hm i]
  by_cases h3 : i < 3
  · rw [h i, if_neg (by omega)]
  · simp [h3]

/-- The field reads back. -/
theorem and_replaced {lo hi} {op v op' k : BitVec 32} (hk : MaskIs k lo hi)
    (hv : FitsField lo hi v) (h : FieldReplaced lo hi op v op') : op' &&& k = v := by
  apply BitVec.eq_of_getLsbD_eq
  intro i hi'
  simp [hk i, h i]
  by_cases hc : lo ≤ i ∧ i < hi
  · simp [hc]
  · cases hb : v.getLsbD i
    · simp; intros; omega
    · exact absurd (hv i hb) hc

/-! ## C01 -/

/-- `SetMode`: on load/store opcodes and values confined to bits 5-7 the field is replaced, the
getter returns the value and nothing else changes; every other call returns `InvalidOpCode`. -/
theorem setMode_spec (op : OpCode) (m : BitVec 8) :
    (classOf op < 4 ∧ FitsField 5 8 (m.setWidth 32) →
      FieldReplaced 5 8 op (m.setWidth 32) (op.setMode m) ∧ (op.setMode m).mode = m) ∧
    (¬ (classOf op < 4 ∧ FitsField 5 8 (m.setWidth 32)) → op.setMode m = InvalidOpCode) := by
  constructor
  · rintro ⟨hc, hf⟩
    have hr := replaced_of modeMask_is op _ hf
    have : op.setMode m = (op &&& ~~~modeMask) ||| m.setWidth 32 := by
      unfold setMode
      rw [if_neg]
      simp [(loadStore_iff op).2 hc, (valid_iff modeMask_is _).2 hf]
    rw [this]
    refine ⟨hr, ?_⟩
    unfold mode
    rw [cls_replaced (by decide) hr, if_pos ((loadStore_iff op).2 hc), and_replaced modeMask_is hf hr]
    simp
  · intro h
    unfold setMode
    rw [if_pos]
    simp only [Bool.or_eq_true, Bool.not_eq_true']
    rw [← Bool.not_eq_true, ← Bool.not_eq_true, loadStore_iff, valid_iff modeMask_is]
    exact Classical.not_and_iff_not_or_not.1 h

/-- `SetSize` (bits 3-4 of load/store opcodes). -/
theorem setSize_spec (op : OpCode) (s : BitVec 8) :
    (classOf op < 4 ∧ FitsField 3 5 (s.setWidth 32) →
      FieldReplaced 3 5 op (s.setWidth 32) (op.setSize s) ∧ (op.setSize s).size = s) ∧
    (¬ (classOf op < 4 ∧ FitsField 3 5 (s.setWidth 32)) → op.setSize s = InvalidOpCode) := by
  constructor
  · rintro ⟨hc, hf⟩
    have hr := replaced_of sizeMask_is op _ hf
    have : op.setSize s = (op &&& ~~~sizeMask) ||| s.setWidth 32 := by
      unfold setSize
      rw [if_neg]
      simp [(loadStore_iff op).2 hc, (valid_iff sizeMask_is _).2 hf]
    rw [this]
    refine ⟨hr, ?_⟩
    unfold size
    rw [cls_replaced (by decide) hr, if_pos ((loadStore_iff op).2 hc), and_replaced sizeMask_is hf hr]
    simp
  · intro h
    unfold setSize
    rw [if_pos]
    simp only [Bool.or_eq_true, Bool.not_eq_true']
    rw [← Bool.not_eq_true, ← Bool.not_eq_true, loadStore_iff, valid_iff sizeMask_is]
    exact Classical.not_and_iff_not_or_not.1 h

/-- `SetALUOp` (bits 4-13 of ALU opcodes). -/
theorem setALUOp_spec (op : OpCode) (a : BitVec 16) :
    ((classOf op = 4 ∨ classOf op = 7) ∧ FitsField 4 14 (a.setWidth 32) →
      FieldReplaced 4 14 op (a.setWidth 32) (op.setALUOp a) ∧ (op.setALUOp a).aluOp = a) ∧
    (¬ ((classOf op = 4 ∨ classOf op = 7) ∧ FitsField 4 14 (a.setWidth 32)) →
      op.setALUOp a = InvalidOpCode) := by
  constructor
  · rintro ⟨hc, hf⟩
    have hr := replaced_of aluMask_is op _ hf
    have : op.setALUOp a = (op &&& ~~~aluMask) ||| a.setWidth 32 := by
      unfold setALUOp
      rw [if_neg]
      simp [(alu_iff op).2 hc, (valid_iff aluMask_is _).2 hf]
    rw [this]
    refine ⟨hr, ?_⟩
    unfold aluOp
    rw [cls_replaced (by decide) hr, if_pos ((alu_iff op).2 hc), and_replaced aluMask_is hf hr]
    simp
  · intro h
    unfold setALUOp
    rw [if_pos]
    simp only [Bool.or_eq_true, Bool.not_eq_true']
    rw [← Bool.not_eq_true, ← Bool.not_eq_true, alu_iff, valid_iff aluMask_is]
    exact Classical.not_and_iff_not_or_not.1 h

/-- `SetSource` (bit 3 of jump and ALU opcodes). The getter hides the bit for byte swaps, whose
bit 3 selects the endianness. -/
theorem setSource_spec (op : OpCode) (s : BitVec 16) :
    (4 ≤ classOf op ∧ FitsField 3 4 (s.setWidth 32) →
      FieldReplaced 3 4 op (s.setWidth 32) (op.setSource s) ∧
      (op.aluOp ≠ Swap → (op.setSource s).source = s)) ∧
    (¬ (4 ≤ classOf op ∧ FitsField 3 4 (s.setWidth 32)) → op.setSource s = InvalidOpCode) := by
  have hcl : (clsIsJump op.cls || clsIsALU op.cls) = true ↔ 4 ≤ classOf op := by
    rw [Bool.or_eq_true, jump_iff, alu_iff]; unfold classOf; omega
  constructor
  · rintro ⟨hc, hf⟩
    have hr := replaced_of sourceMask_is op _ hf
    have : op.setSource s = (op &&& ~~~sourceMask) ||| s.setWidth 32 := by
      unfold setSource
      rw [if_neg]
      simp only [hcl.2 hc, (valid_iff sourceMask_is _).2 hf]; decide
    rw [this]
    refine ⟨hr, ?_⟩
    intro hsw
    have halu : ((op &&& ~~~sourceMask) ||| s.setWidth 32).aluOp = op.aluOp := by
      unfold aluOp
      rw [cls_replaced (by decide) hr]
      have : ((op &&& ~~~sourceMask) ||| s.setWidth 32) &&& aluMask = op &&& aluMask := by
        apply BitVec.eq_of_getLsbD_eq
        intro i hi'
        have := hr i
        rw [BitVec.getLsbD_and, this, BitVec.getLsbD_and, aluMask_is i]
        by_cases h4 : 4 ≤ i
        · rw [if_neg (by omega)]
        · simp [h4]
      rw [this]
    unfold source
    rw [halu, cls_replaced (by decide) hr, if_neg (by rw [hcl.2 hc]; simp [hsw]),
      and_replaced sourceMask_is hf hr]
    simp
  · intro h
    unfold setSource
    rw [if_pos]
    rw [Bool.or_eq_true, Bool.not_eq_true', Bool.not_eq_true', ← Bool.not_eq_true, ← Bool.not_eq_true, hcl, valid_iff sourceMask_is]
    exact Classical.not_and_iff_not_or_not.1 h

/-- `SetAtomicOp` (bits 8-16 of `StXClass` opcodes in atomic mode). -/
theorem setAtomicOp_spec (op : OpCode) (a : BitVec 32) :
    (classOf op = 3 ∧ op.mode = AtomicMode ∧ FitsField 8 17 a →
      FieldReplaced 8 17 op a (op.setAtomicOp a) ∧ (op.setAtomicOp a).atomicOp = a) ∧
    (¬ (classOf op = 3 ∧ op.mode = AtomicMode ∧ FitsField 8 17 a) →
      op.setAtomicOp a = InvalidOpCode) := by
  constructor
  · rintro ⟨hc, hm, hf⟩
    have hr := replaced_of atomicMask_is op _ hf
    have : op.setAtomicOp a = (op &&& ~~~atomicMask) ||| a := by
      unfold setAtomicOp
      rw [if_neg]
      rw [(stx_iff op).2 hc, (valid_iff atomicMask_is _).2 hf, hm]; decide
    rw [this]
    refine ⟨hr, ?_⟩
    have hmode : ((op &&& ~~~atomicMask) ||| a).mode = op.mode := by
      unfold mode
      rw [cls_replaced (by decide) hr]
      have : ((op &&& ~~~atomicMask) ||| a) &&& modeMask = op &&& modeMask := by
        apply BitVec.eq_of_getLsbD_eq
        intro i hi'
        have := hr i
        rw [BitVec.getLsbD_and, this, BitVec.getLsbD_and, modeMask_is i]
        by_cases h8 : i < 8
        · rw [if_neg (by omega)]
        · simp [h8]
      rw [this]
    unfold atomicOp
    rw [hmode, cls_replaced (by decide) hr, (stx_iff op).2 hc, hm]
    simp only [bne_self_eq_false, Bool.or_self, Bool.false_eq_true, if_false]
    exact and_replaced atomicMask_is hf hr
  · intro h
    unfold setAtomicOp
    rw [if_pos]
    rw [Bool.or_eq_true, Bool.or_eq_true, Bool.not_eq_true', ← Bool.not_eq_false, stx_iff,
      ← Bool.not_eq_true, valid_iff atomicMask_is]
    simp only [bne_iff_ne, ne_eq]
    by_cases h1 : classOf op = 3 <;> by_cases h2 : op.mode = AtomicMode <;> simp_all

/-- `SetJumpOp` (bits 4-7 of jump opcodes; 32-bit jumps have neither `Call` nor `Exit`). -/
theorem setJumpOp_spec (op : OpCode) (j : BitVec 8) :
    ((classOf op = 5 ∨ (classOf op = 6 ∧ j ≠ Call ∧ j ≠ Exit)) ∧ FitsField 4 8 (j.setWidth 32) →
      FieldReplaced 4 8 op (j.setWidth 32) (op.setJumpOp j) ∧ (op.setJumpOp j).jumpOp = j) ∧
    (¬ ((classOf op = 5 ∨ (classOf op = 6 ∧ j ≠ Call ∧ j ≠ Exit)) ∧ FitsField 4 8 (j.setWidth 32)) →
      op.setJumpOp j = InvalidOpCode) := by
  have h32 : (op.cls == Jump32Class) = true ↔ classOf op = 6 := by
    rw [← cls_eq]; simp [Jump32Class, ← BitVec.toNat_inj]
  by_cases hf : FitsField 4 8 (j.setWidth 32)
  · have hr := replaced_of jumpMask_is op _ hf
    by_cases hj : classOf op = 5 ∨ classOf op = 6
    · have hjb := (jump_iff op).2 hj
      have hset : op.setJumpOp j =
          if ((op &&& ~~~jumpMask) ||| j.setWidth 32).jumpOp == InvalidJumpOp then InvalidOpCode
          else (op &&& ~~~jumpMask) ||| j.setWidth 32 := by
        unfold setJumpOp
        rw [if_neg]
        simp [hjb, (valid_iff jumpMask_is _).2 hf]
      have hget : ((op &&& ~~~jumpMask) ||| j.setWidth 32).jumpOp =
          if op.cls == Jump32Class && (j == Exit || j == Call) then InvalidJumpOp else j := by
        unfold jumpOp
        rw [cls_replaced (by decide) hr, if_pos hjb, and_replaced jumpMask_is hf hr]
        simp
      have hjne : j ≠ InvalidJumpOp := by
        intro hc
        have := hf 0
        rw [hc] at this
        exact absurd (this (by decide)).1 (by decide)
      constructor
      · rintro ⟨hc, _⟩
        have hcond : (op.cls == Jump32Class && (j == Exit || j == Call)) = false := by
          rcases hc with hc | ⟨hc, hn1, hn2⟩
          · have : (op.cls == Jump32Class) = false := by
              rw [← Bool.not_eq_true, h32]; omega
            simp [this]
          · simp [hn1, hn2]
        rw [hcond] at hget
        simp only [Bool.false_eq_true, if_false] at hget
        rw [hset, hget]
        simp only [beq_iff_eq, hjne, if_false]
        exact ⟨hr, hget⟩
      · intro h
        have hcond : (op.cls == Jump32Class && (j == Exit || j == Call)) = true := by
          have h6 : classOf op = 6 := by
            rcases hj with h5 | h6
            · exact absurd ⟨Or.inl h5, hf⟩ h
            · exact h6
          simp only [Bool.and_eq_true, h32, h6, true_and, Bool.or_eq_true, beq_iff_eq]
          by_cases he : j = Exit
          · exact Or.inl he
          · by_cases hcall : j = Call
            · exact Or.inr hcall
            · exact absurd ⟨Or.inr ⟨h6, hcall, he⟩, hf⟩ h
        rw [hset, hget, hcond]; simp
    · constructor
      · rintro ⟨hc, _⟩; omega
      · intro _
        unfold setJumpOp
        rw [if_pos]
        have : clsIsJump op.cls = false := by rw [← Bool.not_eq_true, jump_iff]; exact hj
        simp [this]
  · constructor
    · rintro ⟨_, h⟩; exact absurd h hf
    · intro _
      unfold setJumpOp
      rw [if_pos]
      have : valid (j.setWidth 32) jumpMask = false := by
        rw [← Bool.not_eq_true, valid_iff jumpMask_is]; exact hf
      simp [this]

/-! Non-vacuity: concrete opcodes meeting the hypotheses of each theorem. -/
example : classOf 0x61#32 < 4 ∧ FitsField 5 8 ((0x60#8).setWidth 32) ∧ OpCode.setMode 0x01#32 0x60#8 = 0x61#32 :=
  ⟨by decide, (valid_iff modeMask_is _).1 (by decide), by decide⟩
example : OpCode.setSize 0x61#32 0x18#8 = 0x79#32 := by decide
example : OpCode.setALUOp 0x07#32 MovSX32 = 0x3b7#32 ∧ FitsField 4 14 (MovSX32.setWidth 32) :=
  ⟨by decide, (valid_iff aluMask_is _).1 (by decide)⟩
example : OpCode.setSource 0xb7#32 0x8#16 = 0xbf#32 := by decide
example : OpCode.setAtomicOp 0xdb#32 0x100#32 = 0x1db#32 := by decide
example : OpCode.setJumpOp 0x05#32 Call = 0x85#32 ∧ OpCode.setJumpOp 0x06#32 Call = InvalidOpCode := by decide

end Ebpf.Asm

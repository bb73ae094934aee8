import Verif.Spec.CoreField
/-!
# C34: loads and shifts extract the right bits
-/
namespace Ebpf.Btf
open Ebpf.BtfSpec

theorem leNum_drop : ∀ (l : Bytes) (n : Nat), leNum (l.drop n) = leNum l / 2 ^ (8 * n)
  | l, 0 => by simp
  | [], n + 1 => by simp [leNum]
  | b :: l, n + 1 => by
    rw [List.drop_succ_cons, leNum_drop l n]
    have hb := b.isLt
    have : leNum (b :: l) / 256 = leNum l := by simp only [leNum]; omega
    rw [← this, Nat.div_div_eq_div_mul]
    congr 1
    rw [show 8 * (n + 1) = 8 + 8 * n by omega, Nat.pow_add]

theorem leNum_take : ∀ (l : Bytes) (n : Nat), leNum (l.take n) = leNum l % 2 ^ (8 * n)
  | l, 0 => by simp [leNum, Nat.mod_one]
  | [], n + 1 => by simp [leNum]
  | b :: l, n + 1 => by
    rw [List.take_succ_cons]
    simp only [leNum]
    rw [leNum_take l n, show 8 * (n + 1) = 8 + 8 * n by omega, Nat.pow_add, Nat.mod_mul]
    have hb := b.isLt
    rw [show (2 : Nat) ^ 8 = 256 by rfl]
    have h1 : (b.toNat + 256 * leNum l) % 256 = b.toNat := by omega
    have h2 : (b.toNat + 256 * leNum l) / 256 = leNum l := by omega
    rw [h1, h2]

theorem leNum_slice (l : Bytes) (o w : Nat) : leNum ((l.drop o).take w) = leNum l / 2 ^ (8 * o) % 2 ^ (8 * w) := by
  rw [leNum_take, leNum_drop]

theorem beNum_slice (l : Bytes) (o w : Nat) (h : o + w ≤ l.length) :
    beNum ((l.drop o).take w) = beNum l / 2 ^ (8 * (l.length - o - w)) % 2 ^ (8 * w) := by
  unfold beNum
  rw [← leNum_slice]
  congr 1
  rw [List.reverse_take, List.reverse_drop, List.length_drop, List.drop_take]
  rw [show l.length - o - (l.length - o - w) = w by omega]

theorem readField_core (x l s : Nat) (h : l + s ≤ 64) : x * 2 ^ l % 2 ^ 64 / 2 ^ (64 - s) = x / 2 ^ (64 - s - l) % 2 ^ s := by
  apply Nat.eq_of_testBit_eq
  intro i
  rw [Nat.testBit_div_two_pow, Nat.testBit_mod_two_pow, Nat.testBit_mod_two_pow, Nat.testBit_div_two_pow, ← Nat.shiftLeft_eq,
    Nat.testBit_shiftLeft]
  by_cases hi : i < s
  · have h1 : i + (64 - s) < 64 := by omega
    have h2 : i + (64 - s) ≥ l := by omega
    have h3 : i + (64 - s) - l = i + (64 - s - l) := by omega
    simp [hi, h1, h2, h3]
  · have h1 : ¬ i + (64 - s) < 64 := by omega
    simp [hi, h1]

theorem slice_bits (x a b c s : Nat) (h : b + s ≤ c) : x / 2 ^ a % 2 ^ c / 2 ^ b % 2 ^ s = x / 2 ^ (a + b) % 2 ^ s := by
  apply Nat.eq_of_testBit_eq
  intro i
  simp only [Nat.testBit_div_two_pow, Nat.testBit_mod_two_pow]
  by_cases hi : i < s
  · have h1 : i + b < c := by omega
    simp [hi, h1, show i + b + a = i + (a + b) by omega]
  · simp [hi]

/-- The shifts the relocations compute. -/
def shl (le : Bool) (width bo s : Nat) : Nat := if le then 64 - bo - s else 64 - 8 * width + bo

theorem shifted (le : Bool) (mem : Bytes) (off width bo s : Nat) (hs : 0 < s) (hw : width ≤ 8) (hb : bo + s ≤ 8 * width)
    (hm : off + width ≤ mem.length) :
    (if le then leNum ((mem.drop off).take width) else beNum ((mem.drop off).take width)) * 2 ^ shl le width bo s % 2 ^ 64 / 2 ^ (64 - s) =
      fieldValue le mem (8 * off + bo) s := by
  cases le with
  | true =>
    simp only [if_true, fieldValue, shl]
    rw [readField_core _ _ _ (by omega), leNum_slice, show 64 - s - (64 - bo - s) = bo by omega, slice_bits _ _ _ _ _ hb]
  | false =>
    simp only [Bool.false_eq_true, if_false, fieldValue, shl]
    rw [readField_core _ _ _ (by omega), beNum_slice _ _ _ hm, slice_bits _ _ _ _ _ (by omega)]
    congr 3
    omega

/-- C34: if the loaded word contains the field, the unsigned read yields its value. -/
theorem readField_unsigned (le : Bool) (mem : Bytes) (off width bo s : Nat) (hs : 0 < s) (hw : width ≤ 8) (hb : bo + s ≤ 8 * width)
    (hm : off + width ≤ mem.length) :
    (readField le mem off width (BitVec.ofNat 64 (shl le width bo s)) (BitVec.ofNat 64 (64 - s)) false).toNat =
      fieldValue le mem (8 * off + bo) s := by
  have hl : shl le width bo s < 64 := by unfold shl; split <;> omega
  rw [← shifted le mem off width bo s hs hw hb hm]
  simp only [readField, Bool.false_eq_true, if_false, BitVec.toNat_ushiftRight, BitVec.shiftLeft_eq', BitVec.ushiftRight_eq',
    BitVec.toNat_ofNat, BitVec.toNat_shiftLeft]
  rw [Nat.mod_eq_of_lt (show shl le width bo s < 2 ^ 64 by omega), Nat.mod_eq_of_lt (show 64 - s < 2 ^ 64 by omega),
    Nat.shiftLeft_eq, Nat.shiftRight_eq_div_pow, Nat.mod_mul_mod]

/-- C34: the signed read yields the field read as a two's complement number of its size. -/
theorem readField_signed (le : Bool) (mem : Bytes) (off width bo s : Nat) (hs : 0 < s) (hw : width ≤ 8) (hb : bo + s ≤ 8 * width)
    (hm : off + width ≤ mem.length) :
    (readField le mem off width (BitVec.ofNat 64 (shl le width bo s)) (BitVec.ofNat 64 (64 - s)) true).toInt =
      (BitVec.ofNat s (fieldValue le mem (8 * off + bo) s)).toInt := by
  have hl : shl le width bo s < 64 := by unfold shl; split <;> omega
  rw [← readField_unsigned le mem off width bo s hs hw hb hm]
  simp only [readField, Bool.false_eq_true, if_false, if_true, BitVec.shiftLeft_eq', BitVec.ushiftRight_eq', BitVec.toNat_ofNat,
    Nat.mod_eq_of_lt (show 64 - s < 2 ^ 64 by omega)]
  generalize (BitVec.ofNat 64 _ <<< (_ : Nat) : BitVec 64) = x
  have : x.sshiftRight (64 - s) = (BitVec.ofNat s (x >>> (64 - s)).toNat).signExtend 64 := by
    apply BitVec.eq_of_getLsbD_eq
    intro i hi
    rw [BitVec.getLsbD_sshiftRight, BitVec.getLsbD_signExtend]
    have h64 : ¬ 64 ≤ i := by omega
    simp only [h64, decide_false, Bool.not_false, Bool.true_and, hi, decide_true]
    by_cases his : i < s
    · rw [if_pos (by omega), if_pos his, BitVec.getLsbD_ofNat]
      simp [his, BitVec.testBit_toNat]
    · rw [if_neg (by omega), if_neg his, BitVec.msb_eq_getLsbD_last, BitVec.msb_eq_getLsbD_last, BitVec.getLsbD_ofNat]
      simp only [show s - 1 < s by omega, decide_true, Bool.true_and, BitVec.testBit_toNat, BitVec.getLsbD_ushiftRight]
      congr 1
      omega
  rw [this, BitVec.toInt_signExtend_of_le (by omega)]

end Ebpf.Btf

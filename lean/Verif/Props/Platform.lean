import Verif.Model.Platform
/-!
# C10: platform tagged constants
-/
set_option linter.unusedSimpArgs false
namespace Ebpf.Asm

/-! ## C10 platform constants -/

/-- Splitting a 28 bit value and a tag in the upper bits. -/
theorem low28 (c : BitVec 32) (h : ¬ (c >>> 28 > 0#32)) (i : Nat) (hi : 28 ≤ i) : c.getLsbD i = false := by
  have h0 : c >>> 28 = 0#32 := by
    have := BitVec.not_lt.1 h
    exact BitVec.le_zero_iff.1 this
  have h2 : (c >>> 28).getLsbD (i - 28) = false := by rw [h0]; simp
  rw [BitVec.getLsbD_ushiftRight] at h2
  have e : 28 + (i - 28) = i := by omega
  rwa [e] at h2

theorem shift28_iff (c : BitVec 32) : (c >>> 28 > 0#32) ↔ 2 ^ 28 ≤ c.toNat := by
  rw [gt_iff_lt, BitVec.lt_def, BitVec.toNat_ushiftRight, Nat.shiftRight_eq_div_pow]
  simp

/-- C10: encoding succeeds exactly for the known platforms and values below 2^28. -/
theorem encodeConstant_isSome (p : String) (c : BitVec 32) :
    (Platform.encodeConstant p c).isSome ↔ (p = "linux" ∨ p = "windows") ∧ c.toNat < 2 ^ 28 := by
  unfold Platform.encodeConstant
  by_cases h : 2 ^ 28 ≤ c.toNat
  · rw [if_pos ((shift28_iff c).2 h)]; simp; omega
  · rw [if_neg (fun hh => h ((shift28_iff c).1 hh))]
    unfold Platform.tagForPlatform Platform.Linux Platform.Windows
    by_cases h1 : p = "linux"
    · simp [h1]; omega
    · by_cases h2 : p = "windows"
      · simp [h2]; omega
      · simp [h1, h2]

/-- C10: decoding an encoded constant returns the platform and the value. -/
theorem decode_encodeConstant (p : String) (c v : BitVec 32) (h : Platform.encodeConstant p c = some v) :
    Platform.decodeConstant v = (p, c) := by
  have hs := (encodeConstant_isSome p c).1 (by rw [h]; rfl)
  have hlt := hs.2
  have hb : ∀ i, 28 ≤ i → c.getLsbD i = false := fun i hi =>
    low28 c (fun hh => absurd ((shift28_iff c).1 hh) (by omega)) i hi
  have hcm : c &&& Platform.platformMask = 0#32 := by
    apply BitVec.eq_of_toNat_eq
    have : c &&& 0x70000000#32 = 0#32 := by
      apply BitVec.eq_of_getLsbD_eq
      intro i hi
      rw [BitVec.getLsbD_and]
      by_cases h' : 28 ≤ i
      · rw [hb i h']; simp
      · have : i < 28 := by omega
        have key : ∀ j : Fin 28, (0x70000000#32 : BitVec 32).getLsbD j.1 = false := by decide
        rw [key ⟨i, this⟩]; simp
    exact congrArg BitVec.toNat this
  have hcn : c &&& ~~~Platform.platformMask = c := by
    apply BitVec.eq_of_getLsbD_eq
    intro i hi
    rw [BitVec.getLsbD_and]
    by_cases h' : 28 ≤ i
    · rw [hb i h']; simp
    · have : i < 28 := by omega
      have key : ∀ j : Fin 28, (~~~Platform.platformMask : BitVec 32).getLsbD j.1 = true := by decide
      rw [key ⟨i, this⟩]; simp
  have distr : ∀ t k : BitVec 32, (t ||| c) &&& k = (t &&& k) ||| (c &&& k) := by
    intro t k; ext i hi; simp only [BitVec.getElem_and, BitVec.getElem_or]; cases k[i] <;> simp
  unfold Platform.encodeConstant at h
  rw [if_neg (fun hh => absurd ((shift28_iff c).1 hh) (by omega))] at h
  unfold Platform.tagForPlatform at h
  rcases hs.1 with hp | hp <;> subst hp
  · rw [if_pos (by decide)] at h
    simp only [Option.map_some, Option.some.injEq] at h
    subst h
    unfold Platform.decodeConstant Platform.platformForConstant
    simp only [distr, hcm, hcn]
    have e1 : (Platform.LinuxTag &&& Platform.platformMask) ||| 0#32 = Platform.LinuxTag := by decide
    have e2 : (Platform.LinuxTag &&& ~~~Platform.platformMask) = 0#32 := by decide
    rw [e1, e2, if_pos rfl]; simp [Platform.Linux]
  · rw [if_neg (by decide), if_pos (by decide)] at h
    simp only [Option.map_some, Option.some.injEq] at h
    subst h
    unfold Platform.decodeConstant Platform.platformForConstant
    simp only [distr, hcm, hcn]
    have e1 : (Platform.WindowsTag &&& Platform.platformMask) ||| 0#32 = Platform.WindowsTag := by decide
    have e2 : (Platform.WindowsTag &&& ~~~Platform.platformMask) = 0#32 := by decide
    have e3 : Platform.WindowsTag ≠ Platform.LinuxTag := by decide
    rw [e1, e2, if_neg e3, if_pos rfl]; simp [Platform.Windows]

/-- C10: distinct (platform, value) pairs never share an encoding. -/
theorem encodeConstant_injective (p q : String) (c d v : BitVec 32)
    (h1 : Platform.encodeConstant p c = some v) (h2 : Platform.encodeConstant q d = some v) :
    p = q ∧ c = d := by
  have := (decode_encodeConstant p c v h1).symm.trans (decode_encodeConstant q d v h2)
  simpa using this

example : Platform.encodeConstant "windows" 42#32 = some 0x1000002a#32 := by decide
example : Platform.encodeConstant "linux" 0x10000000#32 = none := by decide

/-- The sign bit of an encoded constant is clear, so it survives the `int32` on the wire. -/
theorem encodeConstant_lt (p : String) (c v : BitVec 32) (h : Platform.encodeConstant p c = some v) :
    v.toNat < 2 ^ 31 := by
  have hs := (encodeConstant_isSome p c).1 (by rw [h]; rfl)
  unfold Platform.encodeConstant at h
  rw [if_neg (fun hh => absurd ((shift28_iff c).1 hh) (by omega))] at h
  unfold Platform.tagForPlatform at h
  rcases hs.1 with hp | hp <;> subst hp
  · rw [if_pos (by decide)] at h
    simp only [Option.map_some, Option.some.injEq] at h
    subst h
    rw [BitVec.toNat_or]
    exact Nat.or_lt_two_pow (by decide) (by omega)
  · rw [if_neg (by decide), if_pos (by decide)] at h
    simp only [Option.map_some, Option.some.injEq] at h
    subst h
    rw [BitVec.toNat_or]
    exact Nat.or_lt_two_pow (by decide) (by omega)

end Ebpf.Asm

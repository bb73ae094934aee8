import Verif.Model.Helpers
/-! # C41 (Align, IsPow, Between) and C47 (Version) -/
namespace Ebpf.Internal

/-- **C41**. For every unsigned width, `Align n a` is the least multiple of `a` that is `≥ n`,
provided `n + a - 1` does not overflow (for every `a ≠ 0`, not only powers of two). -/
theorem align_least_multiple {w : Nat} (n a : BitVec w) (ha : a ≠ 0) (hov : n.toNat + a.toNat - 1 < 2 ^ w) :
    ∃ r, alignU n a = some r ∧ a.toNat ∣ r.toNat ∧ n.toNat ≤ r.toNat ∧
      ∀ m, a.toNat ∣ m → n.toNat ≤ m → r.toNat ≤ m := by
  have hpos : 0 < a.toNat := by
    rcases Nat.eq_zero_or_pos a.toNat with h | h
    · exact absurd (BitVec.eq_of_toNat_eq (by simpa using h)) ha
    · exact h
  refine ⟨(n + a - 1) / a * a, by unfold alignU; rw [if_neg ha], ?_⟩
  have hw : 1 < 2 ^ w ∨ w = 0 := by
    rcases w with _ | w
    · right; rfl
    · left; exact Nat.one_lt_two_pow (by omega)
  have hw : 1 < 2 ^ w := by
    rcases hw with hw | hw
    · exact hw
    · subst hw; have := a.isLt; omega
  have h1 : (1 : BitVec w).toNat = 1 := by simp [Nat.mod_eq_of_lt hw]
  have e1 : (n + a - 1).toNat = n.toNat + a.toNat - 1 := by
    rw [BitVec.toNat_sub, BitVec.toNat_add, h1]
    have := n.isLt; have := a.isLt
    generalize 2 ^ w = W at *
    by_cases hc : n.toNat + a.toNat < W
    · rw [Nat.mod_eq_of_lt hc]
      have : W - 1 + (n.toNat + a.toNat) = (n.toNat + a.toNat - 1) + W := by omega
      rw [this, Nat.add_mod_right, Nat.mod_eq_of_lt hov]
    · have he : n.toNat + a.toNat = W := by omega
      rw [he, Nat.mod_self, Nat.add_zero, Nat.mod_eq_of_lt (by omega)]
  have e2 : ((n + a - 1) / a * a).toNat = (n.toNat + a.toNat - 1) / a.toNat * a.toNat := by
    rw [BitVec.toNat_mul, BitVec.toNat_udiv, e1, Nat.mod_eq_of_lt]
    exact Nat.lt_of_le_of_lt (Nat.div_mul_le_self _ _) hov
  rw [e2]
  have hdm := Nat.div_add_mod (n.toNat + a.toNat - 1) a.toNat
  have hml := Nat.mod_lt (n.toNat + a.toNat - 1) hpos
  rw [Nat.mul_comm] at hdm
  refine ⟨Nat.dvd_mul_left _ _, by omega, ?_⟩
  rintro m ⟨c, rfl⟩ hm
  rw [Nat.mul_comm]
  apply Nat.mul_le_mul_left
  rw [← Nat.lt_add_one_iff, Nat.div_lt_iff_lt_mul hpos]
  rw [Nat.add_mul, Nat.one_mul, Nat.mul_comm c]; omega

example : (13#32) ≠ 0 ∧ alignU 13#32 8#32 = some 16#32 ∧ alignU 16#32 8#32 = some 16#32 := by decide

/-- When `n + a - 1` overflows the result is not aligned upwards: it wraps to zero. -/
theorem align_overflow_wraps : alignU 0xfffffff9#32 8#32 = some 0#32 := by decide

/-- The signed instance equals the unsigned one on non-negative operands whose sum stays
non-negative, so the least-multiple theorem covers Go's `int` too. -/
theorem alignS_eq {w : Nat} (n a : BitVec w) (h1 : (n + a - 1).msb = false) (h2 : a.msb = false) :
    alignS n a = alignU n a := by
  unfold alignS alignU
  rw [BitVec.sdiv_eq]
  simp only [h1, h2]; rfl

/-- **C41**. `IsPow` accepts exactly the powers of two (for signed types this includes the bit
pattern of the most negative value, `2^(w-1)` as unsigned). -/
theorem isPow_iff {w : Nat} (n : BitVec w) : isPow n = true ↔ ∃ k, n.toNat = 2 ^ k := by
  rcases w with _ | w
  · have : n = 0#0 := BitVec.eq_nil n
    subst this
    simp only [isPow]
    constructor
    · intro h; simp at h
    · rintro ⟨k, hk⟩; have := Nat.two_pow_pos k; simp at hk; omega
  have hw : 1 < 2 ^ (w + 1) := Nat.one_lt_two_pow (by omega)
  have key := @Nat.ne_zero_and_sub_one_eq_zero_iff_isPowerOfTwo n.toNat
  have e : isPow n = true ↔ n.toNat ≠ 0 ∧ n.toNat &&& (n.toNat - 1) = 0 := by
    simp only [isPow, Bool.and_eq_true, bne_iff_ne, beq_iff_eq]
    constructor
    · rintro ⟨h0, h1⟩
      have hz : n.toNat ≠ 0 := fun h => h0 (BitVec.eq_of_toNat_eq (by simpa using h))
      refine ⟨hz, ?_⟩
      have := congrArg BitVec.toNat h1
      rw [BitVec.toNat_and] at this
      rw [BitVec.toNat_sub_of_le (by rw [BitVec.le_def]; simp [Nat.mod_eq_of_lt hw]; omega)] at this
      simpa [Nat.mod_eq_of_lt hw] using this
    · rintro ⟨hz, h1⟩
      refine ⟨fun h => hz (by rw [h]; simp), ?_⟩
      apply BitVec.eq_of_toNat_eq
      rw [BitVec.toNat_and, BitVec.toNat_sub_of_le (by rw [BitVec.le_def]; simp [Nat.mod_eq_of_lt hw]; omega)]
      simpa [Nat.mod_eq_of_lt hw] using h1
  rw [e, key]; rfl

example : isPow 64#32 = true ∧ isPow 0#32 = false ∧ isPow 96#32 = false ∧ isPow 0x80#8 = true := by decide

/-- `Between val a b` lies between the two bounds, equals `val` when `val` does, and does not
depend on the order of the bounds. -/
theorem between_spec (val a b : Int) :
    min a b ≤ between val a b ∧ between val a b ≤ max a b ∧
    (min a b ≤ val → val ≤ max a b → between val a b = val) ∧ between val a b = between val b a := by
  unfold between
  by_cases h : a > b <;> by_cases h' : b > a <;> simp [h, h'] <;> omega

/-! ## Version -/

/-- Lexicographic order on the three components as natural numbers. -/
def lexLess (a b : Nat × Nat × Nat) : Prop :=
  a.1 < b.1 ∨ a.1 = b.1 ∧ (a.2.1 < b.2.1 ∨ a.2.1 = b.2.1 ∧ a.2.2 < b.2.2)

/-- The components of a version as numbers. -/
def Version.parts (v : Version) : Nat × Nat × Nat := (v.major.toNat, v.minor.toNat, v.patch.toNat)

/-- `Less` is the lexicographic order on (major, minor, patch). -/
theorem less_iff (v o : Version) : v.less o = true ↔ lexLess v.parts o.parts := by
  unfold Version.less lexLess Version.parts
  simp only [ne_eq, ← BitVec.toNat_inj, BitVec.lt_def]
  split
  · simp; omega
  · split
    · simp; omega
    · split
      · simp; omega
      · simp; omega

/-- **C47**. `Less` is irreflexive, transitive and total. -/
theorem less_strict_total :
    (∀ v : Version, v.less v = false) ∧
    (∀ a b c : Version, a.less b = true → b.less c = true → a.less c = true) ∧
    (∀ a b : Version, a.less b = true ∨ a = b ∨ b.less a = true) := by
  refine ⟨?_, ?_, ?_⟩
  · intro v
    rw [Bool.eq_false_iff, ne_eq, less_iff]; unfold lexLess; omega
  · intro a b c
    rw [less_iff, less_iff, less_iff]; unfold lexLess; omega
  · intro a b
    rw [less_iff, less_iff]
    rcases a with ⟨a1, a2, a3⟩; rcases b with ⟨b1, b2, b3⟩
    simp only [Version.mk.injEq, ← BitVec.toNat_inj, lexLess, Version.parts]
    omega

/-- The value of `KERNEL_VERSION(a,b,c)` from linux/version.h: `(a << 16) + (b << 8) + min c 255`. -/
def kernelVersion (v : Version) : Nat :=
  v.major.toNat * 65536 + v.minor.toNat * 256 + min v.patch.toNat 255

theorem or3 (a b c : Nat) (hb : b < 256) (hc : c < 256) :
    a <<< 16 ||| b <<< 8 ||| c = a * 65536 + b * 256 + c := by
  have h1 : b <<< 8 ||| c = b * 256 + c := by
    rw [Nat.shiftLeft_eq]
    have := Nat.two_pow_add_eq_or_of_lt (i := 8) (b := c) (by omega) b
    rw [Nat.mul_comm] at this; omega
  have h2 : a <<< 16 ||| (b * 256 + c) = a * 65536 + (b * 256 + c) := by
    rw [Nat.shiftLeft_eq]
    have := Nat.two_pow_add_eq_or_of_lt (i := 16) (b := b * 256 + c) (by omega) a
    rw [Nat.mul_comm] at this; omega
  rw [Nat.or_assoc, h1, h2]; omega

/-- **C47**. `Kernel()` is `KERNEL_VERSION` with the patch level clamped to 255, for all versions
with major and minor below 256. -/
theorem kernel_eq (v : Version) (h1 : v.major.toNat < 256) (h2 : v.minor.toNat < 256) :
    v.kernel.toNat = kernelVersion v := by
  unfold Version.kernel kernelVersion
  have hs : ((if v.patch < 255 then v.patch else 255 : BitVec 16)).toNat = min v.patch.toNat 255 := by
    have h255 : (255 : BitVec 16).toNat = 255 := rfl
    split
    · next h => rw [BitVec.lt_def, h255] at h; omega
    · next h => rw [BitVec.lt_def, h255] at h; rw [h255]; omega
  simp only [BitVec.toNat_or, BitVec.toNat_shiftLeft, BitVec.toNat_setWidth, hs]
  rw [Nat.mod_eq_of_lt (a := min _ _) (by omega), Nat.mod_eq_of_lt (a := v.major.toNat) (by omega),
    Nat.mod_eq_of_lt (a := v.minor.toNat) (by omega), Nat.mod_eq_of_lt (a := v.major.toNat) (by omega),
    Nat.mod_eq_of_lt (a := v.minor.toNat) (by omega), Nat.mod_eq_of_lt (a := min _ _) (by omega),
    Nat.mod_eq_of_lt (a := v.major.toNat <<< 16) (by rw [Nat.shiftLeft_eq]; omega),
    Nat.mod_eq_of_lt (a := v.minor.toNat <<< 8) (by rw [Nat.shiftLeft_eq]; omega)]
  exact or3 _ _ _ h2 (by omega)

/-- **C47**. Converting to a version code and back is the identity when every part fits a byte. -/
theorem fromCode_kernel (v : Version) (h1 : v.major.toNat < 256) (h2 : v.minor.toNat < 256)
    (h3 : v.patch.toNat < 256) : versionFromCode v.kernel = v := by
  have hk := kernel_eq v h1 h2
  unfold kernelVersion at hk
  rcases v with ⟨a, b, c⟩
  simp only at *
  unfold versionFromCode
  simp only [Version.mk.injEq, ← BitVec.toNat_inj, BitVec.toNat_setWidth, BitVec.toNat_ushiftRight,
    Nat.shiftRight_eq_div_pow, hk]
  omega

/-- The other direction holds for all codes below 2^24. -/
theorem kernel_fromCode (c : BitVec 32) (h : c.toNat < 2 ^ 24) : (versionFromCode c).kernel = c := by
  have e : (versionFromCode c).major.toNat = c.toNat / 65536 ∧
      (versionFromCode c).minor.toNat = c.toNat / 256 % 256 ∧
      (versionFromCode c).patch.toNat = c.toNat % 256 := by
    simp only [versionFromCode, BitVec.toNat_setWidth, BitVec.toNat_ushiftRight,
      Nat.shiftRight_eq_div_pow]
    omega
  apply BitVec.eq_of_toNat_eq
  rw [kernel_eq _ (by omega) (by omega)]
  unfold kernelVersion
  omega

/-- **C47**. `Kernel()` is monotone: a smaller version never has a larger code, and a version
smaller in major, minor or (unclamped) patch has a strictly smaller code. -/
theorem kernel_monotone (a b : Version) (ha : a.major.toNat < 256 ∧ a.minor.toNat < 256)
    (hb : b.major.toNat < 256 ∧ b.minor.toNat < 256) (h : a.less b = true) :
    a.kernel ≤ b.kernel ∧ (b.patch.toNat < 256 → a.kernel < b.kernel) := by
  rw [less_iff] at h
  rw [BitVec.le_def, BitVec.lt_def, kernel_eq a ha.1 ha.2, kernel_eq b hb.1 hb.2]
  unfold lexLess Version.parts at h
  dsimp only at h
  unfold kernelVersion
  omega

example : (Version.mk 4 9 300).kernel = 0x409ff#32 ∧ (Version.mk 4 9 300).less (Version.mk 5 0 0) = true ∧
    versionFromCode 0x50a03#32 = ⟨5, 10, 3⟩ := by decide

/-- The hypotheses matter: a major version of 256 wraps. -/
theorem kernel_major_wraps : (Version.mk 256 0 0).kernel = 0#32 := by decide

end Ebpf.Internal

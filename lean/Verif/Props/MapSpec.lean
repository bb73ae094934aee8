import Verif.Spec.MapSpec
/-!
# C51: replacement maps; C60: the memory of a map
-/
namespace Ebpf.MapSpec
open Spec

theorem clamp (m n : BitVec 32) : (if m = 0 ∨ m > n then n else m) = perCPUEntries m n := by
  unfold perCPUEntries
  have : m = 0 ↔ m.toNat = 0 := by rw [← BitVec.toNat_inj]; simp
  have h2 : m > n ↔ n.toNat < m.toNat := by rw [gt_iff_lt, BitVec.lt_def]
  grind

theorem fixup_iff (n : BitVec 32) (spec ms : MSpec) : (fixup (some n) spec).1 = some ms ↔
    ms.type = spec.type ∧ ms.flags = spec.flags ∧ AsksFor n spec ms.keySize ms.valueSize ms.maxEntries := by
  have hc := clamp spec.maxEntries n
  obtain ⟨mt, mk, mv, mm, mf⟩ := ms
  unfold fixup
  by_cases h1 : canStoreMap spec.type
  · rw [if_pos h1]
    have h1' : spec.type = 12 ∨ spec.type = 13 ∨ spec.type = 0x10000006 ∨ spec.type = 0x10000007 := by
      simp only [canStoreMap, Bool.or_eq_true, beq_iff_eq] at h1
      rcases h1 with ((h | h) | h) | h <;> rw [h] <;> decide
    have h4 : spec.type ≠ 4 ∧ spec.type ≠ 16 := by rcases h1' with h | h | h | h <;> rw [h] <;> decide
    constructor
    · intro h
      split at h
      · cases h
      · next hv =>
        simp only [Option.some.injEq, MSpec.mk.injEq] at h
        obtain ⟨rfl, rfl, rfl, rfl, rfl⟩ := h
        refine ⟨rfl, rfl, .mapInMap h1' ?_⟩
        unfold Default; grind
    · rintro ⟨rfl, rfl, h⟩
      simp only at h
      cases h with
      | mapInMap _ hv => unfold Default at hv; rw [if_neg (by grind)]
      | perf h => exact absurd h h4.1
      | cpu h => exact absurd h h4.2
      | plain h => simp only [List.mem_cons, not_or] at h; grind
  · rw [if_neg h1]
    have h1' : ¬ (spec.type = 12 ∨ spec.type = 13 ∨ spec.type = 0x10000006 ∨ spec.type = 0x10000007) := by
      intro h
      apply h1
      rcases h with h | h | h | h <;> rw [h] <;> decide
    by_cases h2 : spec.type = tPerfEventArray
    · rw [if_pos h2]
      constructor
      · intro h
        simp only at h
        split at h
        · cases h
        · next hk =>
          split at h
          · cases h
          · next hv =>
            have hd : Default spec.keySize 4 ∧ Default spec.valueSize 4 := by unfold Default; grind
            have e : mt = spec.type ∧ mf = spec.flags ∧ mk = 4 ∧ mv = 4 ∧ mm = perCPUEntries spec.maxEntries n := by
              split at h <;> simp only [Option.some.injEq, MSpec.mk.injEq] at h <;> grind
            obtain ⟨rfl, rfl, rfl, rfl, rfl⟩ := e
            exact ⟨rfl, rfl, .perf h2 hd.1 hd.2⟩
      · rintro ⟨rfl, rfl, h⟩
        simp only at h
        cases h with
        | mapInMap h => exact absurd h h1'
        | perf _ hk hv =>
          unfold Default at hk hv
          simp only
          rw [if_neg (by grind), if_neg (by grind), ← hc]
          split <;> rfl
        | cpu h => rw [h2] at h; exact absurd h (by decide)
        | plain h => exact absurd h (by rw [h2]; decide)
    · rw [if_neg h2]
      by_cases h3 : spec.type = tCPUMap
      · rw [if_pos h3]
        constructor
        · intro h
          simp only at h
          have e : mt = spec.type ∧ mf = spec.flags ∧ mk = spec.keySize ∧ mv = spec.valueSize ∧ mm = perCPUEntries spec.maxEntries n := by
            split at h
            · simp only [Option.some.injEq, MSpec.mk.injEq] at h; grind
            · injection h with h; rw [← hc]; grind
          obtain ⟨rfl, rfl, rfl, rfl, rfl⟩ := e
          exact ⟨rfl, rfl, .cpu h3⟩
        · rintro ⟨rfl, rfl, h⟩
          simp only at h
          cases h with
          | mapInMap h => exact absurd h h1'
          | perf h => exact absurd h h2
          | cpu _ =>
            simp only
            rw [← hc]
            split <;> rfl
          | plain h => exact absurd h (by rw [h3]; decide)
      · rw [if_neg h3]
        constructor
        · intro h
          injection h with h; subst h
          exact ⟨rfl, rfl, .plain (by simp only [List.mem_cons, not_or, List.not_mem_nil]; grind [tCPUMap, tPerfEventArray])⟩
        · rintro ⟨rfl, rfl, h⟩
          simp only at h
          cases h with
          | mapInMap h => exact absurd h h1'
          | perf h => exact absurd h h2
          | cpu h => exact absurd h h3
          | plain _ => rfl

theorem or_and_const (x m : BitVec 32) : m = x ||| (m &&& 128) ↔ m = x ∨ m = x ||| 128 := by
  have bits : ∀ i, i < 32 → i ≠ 7 → (128 : BitVec 32).getLsbD i = false := by
    have : ∀ i : Fin 32, i.val ≠ 7 → (128 : BitVec 32).getLsbD i.val = false := by decide
    exact fun i hi h7 => this ⟨i, hi⟩ h7
  have two : m &&& 128 = 0 ∨ m &&& 128 = 128 := by
    cases hb : m.getLsbD 7 with
    | true =>
      right
      apply BitVec.eq_of_getLsbD_eq
      intro i hi
      rw [BitVec.getLsbD_and]
      by_cases h7 : i = 7
      · subst h7; rw [hb]; rfl
      · rw [bits i hi h7, Bool.and_false]
    | false =>
      left
      apply BitVec.eq_of_getLsbD_eq
      intro i hi
      rw [BitVec.getLsbD_and]
      by_cases h7 : i = 7
      · subst h7; rw [hb]; rfl
      · rw [bits i hi h7, Bool.and_false]; simp
  constructor
  · intro h
    rcases two with t | t <;> rw [t] at h
    · left; simpa using h
    · exact .inr h
  · rintro (rfl | rfl) <;>
    · apply BitVec.eq_of_getLsbD_eq
      intro i hi
      simp only [BitVec.getLsbD_or, BitVec.getLsbD_and]
      generalize BitVec.getLsbD 128 i = a
      generalize BitVec.getLsbD _ i = b
      cases a <;> cases b <;> rfl

/-- C51: exactly the maps the spec asks for are compatible: same type, the sizes and number of entries it asks for, the same flags. -/
theorem compatible_iff (n : BitVec 32) (spec : MSpec) (m : MapInfo) : (compatible (some n) spec m).1 = true ↔
    m.type = spec.type ∧ FlagsMatch spec m.flags ∧ AsksFor n spec m.keySize m.valueSize m.maxEntries := by
  obtain ⟨mt, mk, mv, mm, mf⟩ := m
  have key := fixup_iff n spec
  unfold compatible FlagsMatch
  cases hf : fixup (some n) spec with
  | mk r s =>
    rw [hf] at key
    cases r with
    | none =>
      simp only [Bool.false_eq_true, false_iff]
      rintro ⟨_, _, h⟩
      have := (key ⟨spec.type, mk, mv, mm, spec.flags⟩).2 ⟨rfl, rfl, h⟩
      cases this
    | some ms =>
      obtain ⟨k1, k2, k3⟩ := (key ms).1 rfl
      simp only [Bool.and_eq_true, beq_iff_eq]
      rw [k1, k2]
      have hfl : (mf = if spec.type = tDevMap ∨ spec.type = tDevMapHash then spec.flags ||| (mf &&& rdonlyProg) else spec.flags) ↔
          (mf = spec.flags ∨ (spec.type = 14 ∨ spec.type = 25) ∧ mf = spec.flags ||| 128) := by
        by_cases hd : spec.type = tDevMap ∨ spec.type = tDevMapHash
        · rw [if_pos hd]
          have := or_and_const spec.flags mf
          have hd' : spec.type = 14 ∨ spec.type = 25 := hd
          simp only [hd', true_and]
          exact this
        · rw [if_neg hd]
          have hd' : ¬ (spec.type = 14 ∨ spec.type = 25) := hd
          simp only [hd', false_and, or_false]
      rw [hfl]
      constructor
      · rintro ⟨⟨⟨⟨rfl, rfl⟩, rfl⟩, rfl⟩, h⟩
        exact ⟨rfl, h, k3⟩
      · rintro ⟨h1, h2, h3⟩
        have := (key ⟨spec.type, mk, mv, mm, spec.flags⟩).2 ⟨rfl, rfl, h3⟩
        injection this with this
        subst this
        exact ⟨⟨⟨⟨h1, rfl⟩, rfl⟩, rfl⟩, h2⟩

/-- C51: if the number of CPUs isn't known, only specs that depend on it are refused. -/
theorem compatible_no_cpus (spec : MSpec) (m : MapInfo) :
    (spec.type ≠ 4 ∧ spec.type ≠ 16 → ∀ n, compatible none spec m = compatible (some n) spec m) ∧
    (spec.type = 4 ∨ spec.type = 16 → (compatible none spec m).1 = false) := by
  constructor
  · rintro ⟨h1, h2⟩ n
    have h1' : ¬ spec.type = tPerfEventArray := h1
    have h2' : ¬ spec.type = tCPUMap := h2
    simp only [compatible, fixup, if_neg h1', if_neg h2']
  · rintro (h | h)
    · have h' : spec.type = tPerfEventArray := h
      simp only [compatible, fixup, canStoreMap, h']
      simp only [show (tPerfEventArray == tArrayOfMaps) = false by decide, show (tPerfEventArray == tHashOfMaps) = false by decide,
        show (tPerfEventArray == tWindowsArrayOfMaps) = false by decide, show (tPerfEventArray == tWindowsHashOfMaps) = false by decide]
      by_cases ha : spec.keySize ≠ 0 ∧ spec.keySize ≠ 4 <;> by_cases hb : spec.valueSize ≠ 0 ∧ spec.valueSize ≠ 4 <;> simp [ha, hb]
    · have h' : spec.type = tCPUMap := h
      simp only [compatible, fixup, canStoreMap, h']
      simp only [show (tCPUMap == tArrayOfMaps) = false by decide, show (tCPUMap == tHashOfMaps) = false by decide,
        show (tCPUMap == tWindowsArrayOfMaps) = false by decide, show (tCPUMap == tWindowsHashOfMaps) = false by decide,
        show ¬ tCPUMap = tPerfEventArray by decide, Bool.or_false, Bool.false_eq_true, ite_false, ite_true]

/-- C51: a map created from the spec is compatible with the spec, and so is the same map opened again, whatever the kernel did to the
read-only flag of a device map. -/
theorem created_compatible (n : BitVec 32) (spec : MSpec) (m : MapInfo) (h : (createMap (some n) spec).1 = some m) :
    (compatible (some n) spec m).1 = true ∧
    ((spec.type = 14 ∨ spec.type = 25) → (compatible (some n) spec { m with flags := m.flags ||| 128 }).1 = true) := by
  unfold createMap at h
  split at h
  · cases h
  · next ms s hf =>
    have := (fixup_iff n spec ms).1 (by rw [hf])
    obtain ⟨h1, h2, h3⟩ := this
    injection h with h; subst h
    constructor
    · exact (compatible_iff ..).2 ⟨h1, .inl h2, h3⟩
    · intro hd
      exact (compatible_iff ..).2 ⟨h1, .inr ⟨hd, by simp only; rw [h2]⟩, h3⟩

/-- C51: checking compatibility and creating a map leave the spec as it was, except for CPU maps. -/
theorem spec_unchanged_partial (cpus : Option (BitVec 32)) (spec : MSpec) (m : MapInfo) (h : spec.type ≠ 16) :
    (compatible cpus spec m).2 = spec ∧ (createMap cpus spec).2 = spec := by
  have h' : ¬ spec.type = tCPUMap := h
  have : (fixup cpus spec).2 = spec := by
    unfold fixup
    rw [if_neg h']
    split
    · split <;> rfl
    · split
      · split
        · rfl
        · split
          · rfl
          · split
            · rfl
            · simp only; split <;> rfl
      · rfl
  constructor
  · unfold compatible
    cases hf : fixup cpus spec with
    | mk r s => rw [hf] at this; cases r <;> exact this
  · unfold createMap
    cases hf : fixup cpus spec with
    | mk r s => rw [hf] at this; cases r <;> exact this

/-- What C51 doesn't have: checking the compatibility of any map with the spec of a CPU map changes the number of entries in the spec, if it
is zero or more than there are CPUs. -/
theorem cpumap_spec_changed (n : BitVec 32) (spec : MSpec) (m : MapInfo) (h : spec.type = 16) (he : spec.maxEntries = 0 ∨ n.toNat < spec.maxEntries.toNat) :
    (compatible (some n) spec m).2 = { spec with maxEntries := n } := by
  have h' : spec.type = tCPUMap := h
  have he' : spec.maxEntries = 0 ∨ spec.maxEntries > n := by rw [gt_iff_lt, BitVec.lt_def]; exact he
  have hc : canStoreMap spec.type = false := by rw [h']; decide
  have hp : ¬ spec.type = tPerfEventArray := by rw [h']; decide
  simp only [compatible, fixup, hc, Bool.false_eq_true, if_neg hp, if_pos h', if_pos he', ite_false]

/-- A perf event array without sizes on a machine with eight CPUs. -/
example : (compatible (some 8) ⟨4, 0, 0, 4096, 0⟩ ⟨4, 4, 4, 8, 0⟩).1 = true ∧ (compatible (some 8) ⟨4, 0, 0, 0, 0⟩ ⟨4, 4, 4, 9, 0⟩).1 = false := by decide

/-- A CPU map. -/
example : compatible (some 8) ⟨16, 4, 4, 0, 0⟩ ⟨16, 4, 4, 8, 0⟩ = (true, ⟨16, 4, 4, 8, 0⟩) := by decide

/-! ## Memory -/

theorem alignInt_spec (n a : Nat) (ha : 0 < a) : n ≤ alignInt n a ∧ alignInt n a < n + a ∧ a ∣ alignInt n a := by
  unfold alignInt
  have h := Nat.div_add_mod (n + a - 1) a
  have h2 := Nat.mod_lt (n + a - 1) ha
  rw [Nat.mul_comm] at h
  refine ⟨by omega, by omega, ⟨_, Nat.mul_comm _ _⟩⟩

theorem align32_8 (n : BitVec 32) (h : n.toNat + 7 < 2 ^ 32) : (align32 n 8).toNat = (n.toNat + 7) / 8 * 8 := by
  unfold align32
  have e : n + 8 - 1 = n + 7 := by
    apply BitVec.eq_of_toNat_eq; simp; omega
  rw [e]
  simp only [BitVec.toNat_mul, BitVec.toNat_udiv, BitVec.toNat_add, show (7 : BitVec 32).toNat = 7 by decide, show (8 : BitVec 32).toNat = 8 by decide]
  omega

/-- The bytes an array takes: each value on an 8 byte boundary. -/
def arrayBytes (valueSize maxEntries : Nat) : Nat := (valueSize + 7) / 8 * 8 * maxEntries

/-- C60: the memory of an array whose size fits 32 bits, and of any arena, covers the whole map, in whole pages and not more than needed. -/
theorem memorySize_covers_partial (page : Nat) (hp : 0 < page) (m : MapInfo) (s : Nat) (h : memorySize page m = some s) :
    (m.type = 2 → m.valueSize.toNat + 7 < 2 ^ 32 → arrayBytes m.valueSize.toNat m.maxEntries.toNat < 2 ^ 32 →
      arrayBytes m.valueSize.toNat m.maxEntries.toNat ≤ s ∧ s < arrayBytes m.valueSize.toNat m.maxEntries.toNat + page ∧ page ∣ s) ∧
    (m.type = 33 → s = m.maxEntries.toNat * page) := by
  unfold memorySize at h
  constructor
  · intro ht hv hs
    have ht' : m.type = tArray := ht
    rw [if_pos ht'] at h
    injection h with h; subst h
    have e : (align32 m.valueSize 8 * m.maxEntries).toNat = arrayBytes m.valueSize.toNat m.maxEntries.toNat := by
      unfold arrayBytes at hs ⊢
      rw [BitVec.toNat_mul, align32_8 _ hv, Nat.mod_eq_of_lt hs]
    rw [e]
    exact alignInt_spec _ _ hp
  · intro ht
    have ht' : m.type = tArena := ht
    have : ¬ m.type = tArray := by rw [ht']; decide
    rw [if_neg this, if_pos ht'] at h
    injection h with h; exact h.symm

/-- What C60 doesn't have: the memory of an array of 4 GiB or more is too small. -/
theorem memorySize_short (page : Nat) (hp : page ∣ 2 ^ 32) (m : MapInfo) (ht : m.type = 2) (hv : m.valueSize.toNat + 7 < 2 ^ 32)
    (hs : 2 ^ 32 ≤ arrayBytes m.valueSize.toNat m.maxEntries.toNat) :
    ∃ s, memorySize page m = some s ∧ s < arrayBytes m.valueSize.toNat m.maxEntries.toNat := by
  have ht' : m.type = tArray := ht
  refine ⟨_, by unfold memorySize; rw [if_pos ht'], ?_⟩
  have e : (align32 m.valueSize 8 * m.maxEntries).toNat = arrayBytes m.valueSize.toNat m.maxEntries.toNat % 2 ^ 32 := by
    unfold arrayBytes
    rw [BitVec.toNat_mul, align32_8 _ hv]
  rw [e]
  generalize arrayBytes m.valueSize.toNat m.maxEntries.toNat = P at hs ⊢
  obtain ⟨k, hk⟩ := hp
  have hpos : 0 < page := by
    rcases Nat.eq_zero_or_pos page with h | h
    · rw [h] at hk; simp at hk
    · exact h
  have hr : P % 2 ^ 32 < 2 ^ 32 := Nat.mod_lt _ (by decide)
  have hle : alignInt (P % 2 ^ 32) page ≤ 2 ^ 32 := by
    unfold alignInt
    have : (P % 2 ^ 32 + page - 1) / page ≤ k := by
      have h1 : P % 2 ^ 32 + page - 1 < (k + 1) * page := by rw [Nat.add_mul, Nat.mul_comm k page, ← hk]; omega
      have := (Nat.div_lt_iff_lt_mul hpos).2 h1
      omega
    calc _ ≤ k * page := Nat.mul_le_mul_right _ this
      _ = 2 ^ 32 := by rw [Nat.mul_comm]; exact hk.symm
  by_cases hP : P = 2 ^ 32
  · subst hP
    simp only [Nat.mod_self, alignInt]
    have : (0 + page - 1) / page = 0 := Nat.div_eq_of_lt (by omega)
    rw [this]; simp
  · omega

/-- 4097 values of 1 MiB: the mapping is 1 MiB. -/
example : memorySize 4096 ⟨2, 4, 1048576, 4097, 1024⟩ = some 1048576 := by decide +kernel

end Ebpf.MapSpec

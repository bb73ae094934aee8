import Verif.Model.Sysenc
/-! # C53: zero-copy marshalling is indistinguishable from `encoding/binary` -/
namespace Ebpf.Sysenc
open Ebpf.PerCPU (zeros)

mutual
/-- No field named `_` anywhere. -/
def NoBlank : Ty → Prop
  | .num _ => True
  | .arr _ t => NoBlank t
  | .struct fs => NoBlankFs fs
def NoBlankFs : Fs → Prop
  | .nil _ => True
  | .cons k _ t rest => k ≠ .blank ∧ NoBlank t ∧ NoBlankFs rest
end

mutual
theorem binSize_le : ∀ t : Ty, binSize t ≤ sizeof t
  | .num n => by simp [binSize, sizeof]
  | .arr n t => by simp only [binSize, sizeof]; exact Nat.mul_le_mul_left _ (binSize_le t)
  | .struct fs => by simp only [binSize, sizeof]; exact binSizeFs_le fs
theorem binSizeFs_le : ∀ fs : Fs, binSizeFs fs ≤ sizeofFs fs
  | .nil pad => by simp [binSizeFs]
  | .cons k pad t rest => by
    simp only [binSizeFs, sizeofFs]
    have := binSize_le t
    have := binSizeFs_le rest
    omega
end

theorem arrAppend_id (f : Bytes → Bytes) (k n : Nat) (hf : ∀ m : Bytes, m.length = k → f m = m) (mem : Bytes)
    (h : mem.length = n * k) : arrAppend f k n mem = mem := by
  induction n generalizing mem with
  | zero => rw [Nat.zero_mul] at h; rw [List.length_eq_zero_iff.1 h]; rfl
  | succ n ih =>
    rw [Nat.succ_mul] at h
    rw [arrAppend, hf _ (by rw [List.length_take]; omega), ih _ (by rw [List.length_drop]; omega), List.take_append_drop]

theorem arrDecode_id (f : Bytes → Bytes → Bytes) (k n : Nat)
    (hf : ∀ o m : Bytes, o.length = k → m.length = k → f o m = m) (old buf : Bytes)
    (ho : old.length = n * k) (h : buf.length = n * k) : arrDecode f k k n old buf = buf := by
  induction n generalizing old buf with
  | zero => rw [Nat.zero_mul] at h; rw [List.length_eq_zero_iff.1 h]; rfl
  | succ n ih =>
    rw [Nat.succ_mul] at h ho
    rw [arrDecode, hf _ _ (by rw [List.length_take]; omega) (by rw [List.length_take]; omega),
      ih _ _ (by rw [List.length_drop]; omega) (by rw [List.length_drop]; omega), List.take_append_drop]

mutual
/-- Without padding and blank fields, `binary.Append` writes the memory contents. -/
theorem binAppend_mem : ∀ (t : Ty) (mem : Bytes), NoBlank t → binSize t = sizeof t → mem.length = sizeof t → binAppend t mem = mem
  | .num n, mem, _, _, _ => rfl
  | .arr n t, mem, hb, hs, hl => by
    simp only [binAppend]
    simp only [binSize, sizeof] at hs
    simp only [sizeof] at hl
    simp only [NoBlank] at hb
    rcases Nat.eq_zero_or_pos n with hn | hn
    · subst hn
      rw [Nat.zero_mul] at hl
      rw [List.length_eq_zero_iff.1 hl]; rfl
    · have hs' : binSize t = sizeof t := Nat.eq_of_mul_eq_mul_left hn hs
      exact arrAppend_id _ _ _ (fun m hm => binAppend_mem t m hb hs' hm) mem hl
  | .struct fs, mem, hb, hs, hl => by
    simp only [binAppend]
    simp only [binSize, sizeof] at hs
    simp only [sizeof] at hl
    simp only [NoBlank] at hb
    exact binAppendFs_mem fs mem hb hs hl
theorem binAppendFs_mem : ∀ (fs : Fs) (mem : Bytes), NoBlankFs fs → binSizeFs fs = sizeofFs fs → mem.length = sizeofFs fs →
    binAppendFs fs mem = mem
  | .nil pad, mem, _, hs, hl => by
    simp only [binSizeFs, sizeofFs] at hs hl
    rw [← hs] at hl
    rw [List.length_eq_zero_iff.1 hl]; rfl
  | .cons k pad t rest, mem, hb, hs, hl => by
    simp only [binSizeFs, sizeofFs] at hs hl
    simp only [NoBlankFs] at hb
    have h1 := binSize_le t
    have h2 := binSizeFs_le rest
    have hp : pad = 0 := by omega
    subst hp
    simp only [binAppendFs, if_neg hb.1, List.drop_zero, Nat.zero_add]
    rw [binAppend_mem t _ hb.2.1 (by omega) (by rw [List.length_take]; omega),
      binAppendFs_mem rest _ hb.2.2 (by omega) (by rw [List.length_drop]; omega), List.take_append_drop]
end

mutual
/-- Without padding and blank fields, `binary.Decode` overwrites the memory with the input. -/
theorem binDecode_mem : ∀ (t : Ty) (old buf : Bytes), NoBlank t → binSize t = sizeof t → old.length = sizeof t →
    buf.length = sizeof t → binDecode t old buf = buf
  | .num n, _, _, _, _, _, _ => rfl
  | .arr n t, old, buf, hb, hs, ho, hl => by
    simp only [binDecode]
    simp only [binSize, sizeof] at hs
    simp only [sizeof] at hl ho
    simp only [NoBlank] at hb
    rcases Nat.eq_zero_or_pos n with hn | hn
    · subst hn
      rw [Nat.zero_mul] at hl
      rw [List.length_eq_zero_iff.1 hl]; rfl
    · have hs' : binSize t = sizeof t := Nat.eq_of_mul_eq_mul_left hn hs
      rw [hs']
      exact arrDecode_id _ _ _ (fun o m h1 h2 => binDecode_mem t o m hb hs' h1 h2) old buf ho hl
  | .struct fs, old, buf, hb, hs, ho, hl => by
    simp only [binDecode]
    simp only [binSize, sizeof] at hs
    simp only [sizeof] at hl ho
    simp only [NoBlank] at hb
    exact binDecodeFs_mem fs old buf hb hs ho hl
theorem binDecodeFs_mem : ∀ (fs : Fs) (old buf : Bytes), NoBlankFs fs → binSizeFs fs = sizeofFs fs → old.length = sizeofFs fs →
    buf.length = sizeofFs fs → binDecodeFs fs old buf = buf
  | .nil pad, old, buf, _, hs, ho, hl => by
    simp only [binSizeFs, sizeofFs] at hs hl
    rw [← hs] at hl
    rw [List.length_eq_zero_iff.1 hl]
    simp [binDecodeFs, ← hs]
  | .cons k pad t rest, old, buf, hb, hs, ho, hl => by
    simp only [binSizeFs, sizeofFs] at hs hl ho
    simp only [NoBlankFs] at hb
    have h1 := binSize_le t
    have h2 := binSizeFs_le rest
    have hp : pad = 0 := by omega
    subst hp
    have hs1 : binSize t = sizeof t := by omega
    simp only [binDecodeFs, if_neg hb.1, List.drop_zero, Nat.zero_add, List.take_zero, List.nil_append]
    rw [hs1, binDecode_mem t _ _ hb.2.1 hs1 (by rw [List.length_take]; omega) (by rw [List.length_take]; omega),
      binDecodeFs_mem rest _ _ hb.2.2 (by omega) (by rw [List.length_drop]; omega) (by rw [List.length_drop]; omega),
      List.take_append_drop]
end

theorem arrAppend_length (f : Bytes → Bytes) (k b n : Nat) (hf : ∀ m : Bytes, m.length = k → (f m).length = b) (mem : Bytes)
    (h : mem.length = n * k) : (arrAppend f k n mem).length = n * b := by
  induction n generalizing mem with
  | zero => simp [arrAppend]
  | succ n ih =>
    rw [Nat.succ_mul] at h ⊢
    rw [arrAppend, List.length_append, hf _ (by rw [List.length_take]; omega), ih _ (by rw [List.length_drop]; omega)]
    omega

mutual
theorem binAppend_length : ∀ (t : Ty) (mem : Bytes), mem.length = sizeof t → (binAppend t mem).length = binSize t
  | .num n, mem, h => by simpa [binAppend, binSize, sizeof] using h
  | .arr n t, mem, h => by
    simp only [binAppend, binSize]
    simp only [sizeof] at h
    exact arrAppend_length _ _ _ _ (fun m hm => binAppend_length t m hm) mem h
  | .struct fs, mem, h => by
    simp only [binAppend, binSize]
    simp only [sizeof] at h
    exact binAppendFs_length fs mem h
theorem binAppendFs_length : ∀ (fs : Fs) (mem : Bytes), mem.length = sizeofFs fs → (binAppendFs fs mem).length = binSizeFs fs
  | .nil pad, mem, _ => by simp [binAppendFs, binSizeFs]
  | .cons k pad t rest, mem, h => by
    simp only [sizeofFs] at h
    simp only [binAppendFs, binSizeFs, List.length_append]
    rw [binAppendFs_length rest _ (by rw [List.length_drop]; omega)]
    split
    · simp [zeros]
    · rw [binAppend_length t _ (by rw [List.length_take, List.length_drop]; omega)]
end

theorem arrDecode_length (f : Bytes → Bytes → Bytes) (k b n : Nat)
    (hf : ∀ o m : Bytes, o.length = k → m.length = b → (f o m).length = k) (old buf : Bytes)
    (ho : old.length = n * k) (h : buf.length = n * b) : (arrDecode f k b n old buf).length = n * k := by
  induction n generalizing old buf with
  | zero => simp [arrDecode]
  | succ n ih =>
    rw [Nat.succ_mul] at h ho ⊢
    rw [arrDecode, List.length_append, hf _ _ (by rw [List.length_take]; omega) (by rw [List.length_take]; omega),
      ih _ _ (by rw [List.length_drop]; omega) (by rw [List.length_drop]; omega)]
    omega

mutual
theorem binDecode_length : ∀ (t : Ty) (old buf : Bytes), old.length = sizeof t → buf.length = binSize t →
    (binDecode t old buf).length = sizeof t
  | .num n, _, buf, _, h => by simpa [binDecode, binSize, sizeof] using h
  | .arr n t, old, buf, ho, h => by
    simp only [binDecode, sizeof]
    simp only [sizeof] at ho
    simp only [binSize] at h
    exact arrDecode_length _ _ _ _ (fun o m h1 h2 => binDecode_length t o m h1 h2) old buf ho h
  | .struct fs, old, buf, ho, h => by
    simp only [binDecode, sizeof]
    simp only [sizeof] at ho
    simp only [binSize] at h
    exact binDecodeFs_length fs old buf ho h
theorem binDecodeFs_length : ∀ (fs : Fs) (old buf : Bytes), old.length = sizeofFs fs → buf.length = binSizeFs fs →
    (binDecodeFs fs old buf).length = sizeofFs fs
  | .nil pad, old, buf, ho, _ => by simp only [sizeofFs] at ho ⊢; simp [binDecodeFs, ho]
  | .cons k pad t rest, old, buf, ho, h => by
    simp only [sizeofFs] at ho ⊢
    simp only [binSizeFs] at h
    simp only [binDecodeFs, List.length_append]
    rw [binDecodeFs_length rest _ _ (by rw [List.length_drop]; omega) (by rw [List.length_drop]; omega), List.length_take]
    split
    · rw [List.length_take, List.length_drop]; omega
    · rw [binDecode_length t _ _ (by rw [List.length_take, List.length_drop]; omega) (by rw [List.length_take]; omega)]
      omega
end

theorem arr_roundtrip (f : Bytes → Bytes) (g : Bytes → Bytes → Bytes) (k b n : Nat)
    (hg : ∀ o m : Bytes, o.length = k → m.length = b → (g o m).length = k)
    (hf : ∀ o m : Bytes, o.length = k → m.length = b → f (g o m) = m) (old buf : Bytes)
    (ho : old.length = n * k) (h : buf.length = n * b) : arrAppend f k n (arrDecode g k b n old buf) = buf := by
  induction n generalizing old buf with
  | zero => rw [Nat.zero_mul] at h; rw [List.length_eq_zero_iff.1 h]; rfl
  | succ n ih =>
    rw [Nat.succ_mul] at h ho
    have h1 : (old.take k).length = k := by rw [List.length_take]; omega
    have h2 : (buf.take b).length = b := by rw [List.length_take]; omega
    have h3 := hg _ _ h1 h2
    rw [arrDecode, arrAppend, List.take_append_of_le_length (by omega), List.take_of_length_le (by omega),
      List.drop_append_of_le_length (by omega), List.drop_of_length_le (by omega), List.nil_append, hf _ _ h1 h2,
      ih _ _ (by rw [List.length_drop]; omega) (by rw [List.length_drop]; omega), List.take_append_drop]

mutual
theorem binAppend_binDecode : ∀ (t : Ty) (old buf : Bytes), NoBlank t → old.length = sizeof t → buf.length = binSize t →
    binAppend t (binDecode t old buf) = buf
  | .num n, _, _, _, _, _ => rfl
  | .arr n t, old, buf, hb, ho, h => by
    simp only [binDecode, binAppend]
    simp only [sizeof] at ho
    simp only [binSize] at h
    simp only [NoBlank] at hb
    exact arr_roundtrip _ _ _ _ _ (fun o m h1 h2 => binDecode_length t o m h1 h2)
      (fun o m h1 h2 => binAppend_binDecode t o m hb h1 h2) old buf ho h
  | .struct fs, old, buf, hb, ho, h => by
    simp only [binDecode, binAppend]
    simp only [sizeof] at ho
    simp only [binSize] at h
    simp only [NoBlank] at hb
    exact binAppendFs_binDecodeFs fs old buf hb ho h
theorem binAppendFs_binDecodeFs : ∀ (fs : Fs) (old buf : Bytes), NoBlankFs fs → old.length = sizeofFs fs →
    buf.length = binSizeFs fs → binAppendFs fs (binDecodeFs fs old buf) = buf
  | .nil pad, old, buf, _, _, h => by
    simp only [binSizeFs] at h
    rw [List.length_eq_zero_iff.1 h]; rfl
  | .cons k pad t rest, old, buf, hb, ho, h => by
    simp only [sizeofFs] at ho
    simp only [binSizeFs] at h
    simp only [NoBlankFs] at hb
    have h1 : ((old.drop pad).take (sizeof t)).length = sizeof t := by rw [List.length_take, List.length_drop]; omega
    have h2 : (buf.take (binSize t)).length = binSize t := by rw [List.length_take]; omega
    have h3 := binDecode_length t _ _ h1 h2
    have h4 : (old.take pad).length = pad := by rw [List.length_take]; omega
    simp only [binDecodeFs, binAppendFs, if_neg hb.1]
    have hroot := binAppend_binDecode t _ _ hb.2.1 h1 h2
    have hrest := binAppendFs_binDecodeFs rest (old.drop (pad + sizeof t)) (buf.drop (binSize t)) hb.2.2
      (by rw [List.length_drop]; omega) (by rw [List.length_drop]; omega)
    generalize binDecode t ((old.drop pad).take (sizeof t)) (buf.take (binSize t)) = x at *
    generalize binDecodeFs rest (old.drop (pad + sizeof t)) (buf.drop (binSize t)) = y at *
    generalize old.take pad = p at *
    have e1 : ((p ++ x ++ y).drop pad).take (sizeof t) = x := by
      rw [List.append_assoc, List.drop_append_of_le_length (by omega), List.drop_of_length_le (by omega), List.nil_append,
        List.take_append_of_le_length (by omega), List.take_of_length_le (by omega)]
    have e2 : (p ++ x ++ y).drop (pad + sizeof t) = y := by
      rw [List.drop_append_of_le_length (by rw [List.length_append]; omega),
        List.drop_of_length_le (by rw [List.length_append]; omega), List.nil_append]
    rw [e1, e2, hroot, hrest, List.take_append_drop]
end

/-! ## The property -/

/-- **C53**, passing a pointer: the zero-copy path and the `encoding/binary` path produce the same
bytes and the same errors, for every type without blank fields, every layout, value and size. -/
theorem marshal_zero_copy_eq_partial (t : Ty) (mem : Bytes) (size : Nat) (hb : NoBlank t) (hl : mem.length = sizeof t) :
    marshal t true mem size = marshal t false mem size := by
  unfold marshal unsafeBackingMemory
  simp only [Bool.not_true, Bool.not_false, if_true, Bool.false_eq_true, if_false]
  by_cases hs : binSize t = sizeof t
  · rw [if_neg (by simpa using hs)]
    rw [binAppend_mem t mem hb hs hl]
    split <;> split <;> simp_all
  · rw [if_pos hs]

/-- **C53**, writing back: decoding kernel output through the zero-copy path and through
`encoding/binary` leave the same memory, also when the kernel wrote directly into the value. -/
theorem syscallOutput_eq_binary_partial (t : Ty) (old out : Bytes) (hb : NoBlank t) (hl : old.length = sizeof t) :
    syscallOutput t old out = (if out.length = binSize t then some (binDecode t old out) else none) ∧
    unmarshal t old out = (if out.length = binSize t then some (binDecode t old out) else none) := by
  have hu : unmarshal t old out = (if out.length = binSize t then some (binDecode t old out) else none) := by
    unfold unmarshal unsafeBackingMemory
    simp only [Bool.not_true, Bool.false_eq_true, if_false]
    by_cases hs : binSize t = sizeof t
    · rw [if_neg (by simpa using hs)]
      by_cases hx : hasUnexportedFields t = true
      · rw [if_pos hx]
      · rw [if_neg hx]
        dsimp only
        by_cases ho : old.length = out.length
        · rw [if_pos ho, if_pos (by omega), binDecode_mem t old out hb hs hl (by omega)]
        · rw [if_neg ho]
    · rw [if_pos hs]
  refine ⟨?_, hu⟩
  unfold syscallOutput unsafeBackingMemory
  simp only [Bool.not_true, Bool.false_eq_true, if_false]
  by_cases hs : binSize t = sizeof t
  · rw [if_neg (by simpa using hs)]
    by_cases hx : hasUnexportedFields t = true
    · rw [if_pos hx]; exact hu
    · rw [if_neg hx]
      dsimp only
      by_cases ho : old.length = out.length
      · rw [if_pos ho, if_pos (by omega), binDecode_mem t old out hb hs hl (by omega)]
      · rw [if_neg ho]; exact hu
  · rw [if_pos hs]; exact hu

/-- **C53**, round trip: what was unmarshalled marshals to the same bytes again, whatever the
padding contained. -/
theorem marshal_unmarshal (t : Ty) (old buf mem : Bytes) (hb : NoBlank t) (hl : old.length = sizeof t)
    (h : unmarshal t old buf = some mem) (isRef : Bool) : marshal t isRef mem buf.length = some buf := by
  rw [(syscallOutput_eq_binary_partial t old buf hb hl).2] at h
  split at h
  · next hlen =>
    injection h with h; subst h
    have hml := binDecode_length t old buf hl hlen
    have key : marshal t false (binDecode t old buf) buf.length = some buf := by
      simp [marshal, unsafeBackingMemory, binAppend_binDecode t old buf hb hl hlen]
    cases isRef with
    | false => exact key
    | true => rw [marshal_zero_copy_eq_partial t _ _ hb hml]; exact key
  · cases h

/-- `Marshal` never returns a buffer of another size than the one asked for. -/
theorem marshal_size (t : Ty) (isRef : Bool) (mem : Bytes) (size : Nat) (b : Bytes) (h : marshal t isRef mem size = some b) :
    b.length = size := by
  unfold marshal at h
  dsimp only at h
  split at h
  · split at h
    · injection h with h; subst h; assumption
    · split at h
      · injection h with h; subst h; assumption
      · cases h
  · split at h
    · injection h with h; subst h; assumption
    · cases h

/-- With a blank field the two paths differ: `encoding/binary` writes zeros for `_`, the zero-copy path
exposes whatever the memory holds (for instance bytes an earlier zero-copy read left there). -/
theorem blank_field_counterexample :
    marshal (.struct (.cons .exported 0 (.num 1) (.cons .blank 0 (.num 1) (.nil 0)))) true [1, 7] 2 = some [1, 7] ∧
    marshal (.struct (.cons .exported 0 (.num 1) (.cons .blank 0 (.num 1) (.nil 0)))) false [1, 7] 2 = some [1, 0] := by
  decide

/-- Non-vacuity: a padded struct takes the slow path, an unpadded one the zero-copy path. -/
def paddedTy : Ty := .struct (.cons .exported 0 (.num 1) (.cons .exported 3 (.arr 2 (.num 2)) (.nil 0)))
example : NoBlank paddedTy := by simp [paddedTy, NoBlank, NoBlankFs]
example : marshal paddedTy true [1, 9, 9, 9, 2, 3, 4, 5] 5 = some [1, 2, 3, 4, 5] := by decide
example : unmarshal paddedTy [0, 9, 9, 9, 0, 0, 0, 0] [1, 2, 3, 4, 5] = some [1, 9, 9, 9, 2, 3, 4, 5] := by decide
example : marshal (.arr 2 (.num 2)) true [2, 3, 4, 5] 4 = some [2, 3, 4, 5] := by decide

end Ebpf.Sysenc

import Verif.Props.PerCPU
import Verif.Model.BatchLookup
/-! # C54: batched lookup on per-CPU maps -/
namespace Ebpf.PerCPU

theorem elems_length (k n : Nat) (b : Bytes) : (elems k n b).length = n := by
  induction n generalizing b with
  | zero => rfl
  | succ n ih => simp [elems, ih]

theorem elems_get (k n i : Nat) (b : Bytes) (h : i < n) : (elems k n b)[i]? = some (window b (i * k) k) := by
  induction n generalizing b i with
  | zero => omega
  | succ n ih =>
    cases i with
    | zero => simp [elems, window]
    | succ i =>
      simp only [elems, List.getElem?_cons_succ]
      rw [ih i _ (by omega)]
      simp only [window, List.drop_drop, Nat.succ_mul]
      rw [Nat.add_comm]

/-- **C54** (proved part). For a destination whose element type has the map's value size and a length
of one element per key and CPU, the result is exactly the matrix of slot values, whether or not the
kernel wrote into the slice directly. If moreover the value size is a multiple of 8, slices of any
other length are rejected. -/
theorem batchLookup_exact_partial (cpus sz count sliceLen : Nat) (out : Bytes) (hsz : 0 < sz)
    (hout : out.length = count * (cpus * align8 sz)) :
    (sliceLen = count * cpus → ∃ vs, batchLookupPerCPU sz cpus sz count sliceLen out = .ok vs ∧
      vs.length = count * cpus ∧
      ∀ elem cpu, elem < count → cpu < cpus →
        vs[elem * cpus + cpu]? = some (valueAt out (align8 sz) sz (elem * cpus + cpu))) ∧
    (sz % 8 = 0 → sliceLen ≠ count * cpus → batchLookupPerCPU sz cpus sz count sliceLen out = .err) := by
  have hst := le_align8 sz
  have hr := align8_spec sz
  have idx : ∀ elem cpu, elem < count → cpu < cpus → elem * cpus + cpu < count * cpus := by
    intro elem cpu he hc
    have : (elem + 1) * cpus ≤ count * cpus := Nat.mul_le_mul_right _ he
    rw [Nat.succ_mul] at this; omega
  constructor
  · intro hl
    unfold batchLookupPerCPU
    split
    · next he =>
      refine ⟨_, rfl, by rw [elems_length, hl], ?_⟩
      intro elem cpu h1 h2
      have hi := idx elem cpu h1 h2
      -- zero copy with the right length means the stride equals the size
      have hpos : 0 < count * cpus := by omega
      have : align8 sz = sz := by
        rw [hl] at he
        have e : count * (align8 sz * cpus) = count * cpus * align8 sz := by
          rw [Nat.mul_comm (align8 sz), Nat.mul_assoc]
        rw [e] at he
        exact (Nat.eq_of_mul_eq_mul_left hpos he).symm
      rw [elems_get _ _ _ _ (by omega)]
      simp only [valueAt, this]
    · obtain ⟨hu, _⟩ := batch_unmarshal_exact (numCodec sz) cpus sliceLen count sz out
      refine ⟨(List.range (count * cpus)).map fun i => valueAt out (align8 sz) sz i, ?_, by simp, ?_⟩
      · rw [hu]
        refine ⟨hl, hout, by simp, ?_⟩
        intro elem cpu h1 h2
        have hi := idx elem cpu h1 h2
        rw [List.getElem?_map, List.getElem?_range hi]
        have hlen : (valueAt out (align8 sz) sz (elem * cpus + cpu)).length = sz := by
          have h3 : (elem * cpus + cpu + 1) * align8 sz ≤ count * cpus * align8 sz := Nat.mul_le_mul_right _ hi
          rw [Nat.succ_mul] at h3
          have h4 : count * (cpus * align8 sz) = count * cpus * align8 sz := (Nat.mul_assoc _ _ _).symm
          exact window_length _ _ _ (by omega)
        simp [numCodec, hlen]
      · intro elem cpu h1 h2
        have hi := idx elem cpu h1 h2
        rw [List.getElem?_map, List.getElem?_range hi]; rfl
  · intro h8 hl
    have hal : align8 sz = sz := by unfold align8; omega
    unfold batchLookupPerCPU
    rw [if_neg]
    · unfold unmarshalBatchPerCPUValue; rw [if_pos hl]
    · rw [hal]
      intro e
      apply hl
      have e' : count * (sz * cpus) = count * cpus * sz := by rw [Nat.mul_comm sz, Nat.mul_assoc]
      rw [e'] at e
      exact Nat.eq_of_mul_eq_mul_right hsz e

/-- The full claim is false: with 4-byte values, one CPU and one key, a slice of two `uint32` has the
8 bytes the kernel writes, so it is accepted although it has the wrong length, and padding is
returned as a value. -/
theorem batchLookup_counterexample :
    batchLookupPerCPU 4 1 4 1 2 [1, 2, 3, 4, 9, 9, 9, 9] = .ok [[1, 2, 3, 4], [9, 9, 9, 9]] := by decide

end Ebpf.PerCPU

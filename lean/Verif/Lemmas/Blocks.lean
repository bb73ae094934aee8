/-! # Buffers made of equally sized blocks -/
namespace Ebpf

/-- `n` elements of `b` from offset `off` (Go `b[off:off+n]`, truncated at the end). -/
def window {α : Type _} (b : List α) (off n : Nat) : List α := (b.drop off).take n

variable {α : Type _}

theorem flatten_length (fs : List (List α)) (k : Nat) (h : ∀ f ∈ fs, f.length = k) : fs.flatten.length = fs.length * k := by
  induction fs with
  | nil => simp
  | cons f fs ih =>
    rw [List.flatten_cons, List.length_append, ih (fun g hg => h g (List.mem_cons_of_mem _ hg)), h f List.mem_cons_self,
      List.length_cons, Nat.succ_mul]; omega

theorem flatten_drop (fs : List (List α)) (k i : Nat) (h : ∀ f ∈ fs, f.length = k) :
    fs.flatten.drop (i * k) = (fs.drop i).flatten := by
  induction i generalizing fs with
  | zero => simp
  | succ i ih =>
    cases fs with
    | nil => simp
    | cons f fs =>
      have hf := h f List.mem_cons_self
      rw [List.drop_succ_cons, List.flatten_cons, ← ih fs (fun g hg => h g (List.mem_cons_of_mem _ hg)),
        List.drop_append, List.drop_eq_nil_of_le (by rw [hf, Nat.succ_mul]; omega), List.nil_append]
      congr 1
      rw [hf, Nat.succ_mul]; omega

theorem flatten_window (fs : List (List α)) (k i : Nat) (h : ∀ f ∈ fs, f.length = k) (hi : i < fs.length) :
    window fs.flatten (i * k) k = fs[i] := by
  unfold window
  rw [flatten_drop fs k i h, List.drop_eq_getElem_cons hi, List.flatten_cons]
  have := h fs[i] (List.getElem_mem hi)
  rw [List.take_append_of_le_length (by omega), List.take_of_length_le (by omega)]

theorem eq_of_windows (n k : Nat) (a b : List α) (ha : a.length = n * k) (hb : b.length = n * k)
    (h : ∀ i, i < n → window a (i * k) k = window b (i * k) k) : a = b := by
  induction n generalizing a b with
  | zero =>
    rw [Nat.zero_mul] at ha hb
    rw [List.length_eq_zero_iff.1 ha, List.length_eq_zero_iff.1 hb]
  | succ n ih =>
    rw [Nat.succ_mul] at ha hb
    have h0 := h 0 (by omega)
    simp only [window, Nat.zero_mul, List.drop_zero] at h0
    rw [← List.take_append_drop k a, ← List.take_append_drop k b, h0]
    congr 1
    apply ih
    · rw [List.length_drop]; omega
    · rw [List.length_drop]; omega
    · intro i hi
      have := h (i + 1) (by omega)
      simp only [window, Nat.succ_mul] at this
      simp only [window, List.drop_drop]
      rw [Nat.add_comm k]; exact this

theorem window_window (b : List α) (o n o' n' : Nat) (h : o' + n' ≤ n) : window (window b o n) o' n' = window b (o + o') n' := by
  unfold window
  rw [List.drop_take, List.take_take, List.drop_drop]
  congr 1; omega

theorem window_append_left (a b : List α) (n : Nat) (h : n ≤ a.length) : window (a ++ b) 0 n = window a 0 n := by
  simp [window, List.take_append_of_le_length h]

theorem window_length (b : List α) (o n : Nat) (h : o + n ≤ b.length) : (window b o n).length = n := by
  simp [window]; omega

end Ebpf

/-! Generic list lemmas. -/
namespace Ebpf

/-- Pigeonhole: a duplicate free list of numbers below `n` has at most `n` elements. -/
theorem nodup_length_le (n : Nat) (l : List Nat) (hn : l.Nodup) (h : ∀ x ∈ l, x < n) : l.length ≤ n := by
  induction n generalizing l with
  | zero =>
    cases l with
    | nil => simp
    | cons a l => exact absurd (h a List.mem_cons_self) (by omega)
  | succ n ih =>
    have h1 : (l.erase n).length ≤ n := by
      apply ih
      · exact hn.erase n
      · intro x hx
        have hx' := (hn.mem_erase_iff).1 hx
        have := h x hx'.2
        omega
    have h2 : l.length ≤ (l.erase n).length + 1 := by
      rw [List.length_erase]; split <;> omega
    omega

/-- A duplicate free list contained in another one is not longer. -/
theorem nodup_subset_length_le {α : Type} [DecidableEq α] (l m : List α) (hn : l.Nodup)
    (h : ∀ x ∈ l, x ∈ m) : l.length ≤ m.length := by
  induction l generalizing m with
  | nil => simp
  | cons a l ih =>
    rw [List.nodup_cons] at hn
    have ha : a ∈ m := h a List.mem_cons_self
    have := ih (m.erase a) hn.2 (by
      intro x hx
      have hne : x ≠ a := by rintro rfl; exact hn.1 hx
      exact (List.mem_erase_of_ne hne).2 (h x (List.mem_cons_of_mem _ hx)))
    rw [List.length_erase_of_mem ha] at this
    have := List.length_pos_of_mem ha
    simp; omega

end Ebpf

import Verif.Spec.Ringbuf
import Verif.Lemmas.Bits
/-! # Lemmas about ring positions and ring memory -/
namespace Ebpf.Ringbuf

theorem mod_ne (n p q : Nat) (h1 : q < p + n) (h2 : p < q + n) (hne : q ≠ p) : q % n ≠ p % n := by
  intro h
  have e1 := Nat.div_add_mod q n
  have e2 := Nat.div_add_mod p n
  rw [h] at e1
  have : q / n = p / n := by
    rcases Nat.lt_trichotomy (q / n) (p / n) with hl | he | hg
    · have : n * (q / n + 1) ≤ n * (p / n) := Nat.mul_le_mul_left n hl
      rw [Nat.mul_add] at this; omega
    · exact he
    · have : n * (p / n + 1) ≤ n * (q / n) := Nat.mul_le_mul_left n hg
      rw [Nat.mul_add] at this; omega
  rw [this] at e1
  omega

@[simp] theorem put_size (r : Ring) (p : Nat) (b : Byte) : (r.put p b).size = r.size := rfl

theorem put_same (r : Ring) (p : Nat) (b : Byte) : (r.put p b).data p = b := by
  simp [Ring.put, Ring.data]

theorem put_ne (r : Ring) (p q : Nat) (b : Byte) (h1 : q < p + r.size) (h2 : p < q + r.size) (hne : q ≠ p) :
    (r.put p b).data q = r.data q := by
  simp [Ring.put, Ring.data, mod_ne r.size p q h1 h2 hne]

@[simp] theorem putLen_size (bo : ByteOrder) (r : Ring) (p : Nat) (x : BitVec 32) : (r.putLen bo p x).size = r.size := by
  cases bo <;> simp [Ring.putLen, ByteOrder.put32]

theorem putLen_ne (bo : ByteOrder) (r : Ring) (p q : Nat) (x : BitVec 32) (h1 : q < p + r.size) (h2 : p + 3 < q + r.size)
    (hne : q < p ∨ p + 4 ≤ q) : (r.putLen bo p x).data q = r.data q := by
  cases bo <;> simp only [Ring.putLen, ByteOrder.put32] <;>
  · rw [put_ne, put_ne, put_ne, put_ne] <;> (try simp only [put_size]) <;> omega

theorem loadLen_putLen (bo : ByteOrder) (r : Ring) (p : Nat) (x : BitVec 32) (hs : 8 ≤ r.size) :
    loadLen bo (r.putLen bo p x) p = x := by
  have e : ∀ (a b c d : Byte), (((((r.put p a).put (p + 1) b).put (p + 2) c).put (p + 3) d)).data p = a := by
    intro a b c d
    rw [put_ne, put_ne, put_ne, put_same] <;> (try simp only [put_size]) <;> omega
  have e1 : ∀ (a b c d : Byte), (((((r.put p a).put (p + 1) b).put (p + 2) c).put (p + 3) d)).data (p + 1) = b := by
    intro a b c d
    rw [put_ne, put_ne, put_same] <;> (try simp only [put_size]) <;> omega
  have e2 : ∀ (a b c d : Byte), (((((r.put p a).put (p + 1) b).put (p + 2) c).put (p + 3) d)).data (p + 2) = c := by
    intro a b c d
    rw [put_ne, put_same] <;> (try simp only [put_size]) <;> omega
  have e3 : ∀ (a b c d : Byte), (((((r.put p a).put (p + 1) b).put (p + 2) c).put (p + 3) d)).data (p + 3) = d := by
    intro a b c d
    rw [put_same]
  have hx := get32_put32 bo x
  obtain ⟨a, b, c, d, h1, h2⟩ := hx
  simp only [Ring.putLen, h1, loadLen, e, e1, e2, e3, h2]

theorem data_mod (r : Ring) (p i : Nat) : r.data (p % r.size + i) = r.data (p + i) := by
  simp [Ring.data, Nat.mod_add_mod]

theorem loadLen_mod (bo : ByteOrder) (r : Ring) (p : Nat) : loadLen bo r (p % r.size) = loadLen bo r p := by
  unfold loadLen
  rw [data_mod, data_mod, data_mod]
  have := data_mod r p 0
  simp only [Nat.add_zero] at this
  rw [this]

theorem busy_bit (i : Nat) (h : i < 32) : BUSY.getLsbD i = decide (i = 31) := by
  revert i; decide
theorem discard_bit (i : Nat) (h : i < 32) : DISCARD.getLsbD i = decide (i = 30) := by
  revert i; decide

theorem len_bit (n i : Nat) (hn : n < 2 ^ 30) (hi : 30 ≤ i) : (BitVec.ofNat 32 n).getLsbD i = false := by
  rw [BitVec.getLsbD_ofNat, Nat.testBit_lt_two_pow (Nat.lt_of_lt_of_le hn (Nat.pow_le_pow_right (by omega) hi))]
  simp

theorem header_bit (r : Rec) (i : Nat) (hi : i < 32) : r.header.getLsbD i =
    ((BitVec.ofNat 32 r.len).getLsbD i || (decide (r.status = .busy) && decide (i = 31)) ||
      (decide (r.status = .discarded) && decide (i = 30))) := by
  obtain ⟨len, st, pl⟩ := r
  cases st <;> simp [Rec.header, busy_bit i hi, discard_bit i hi]

theorem and_bit (x y : BitVec 32) (k : Nat) (hk : k < 32) (hy : ∀ (i : Nat), i < 32 → y.getLsbD i = decide (i = k)) :
    (x &&& y != 0) = x.getLsbD k := by
  cases h : x.getLsbD k
  · rw [bne_eq_false_iff_eq]
    apply BitVec.eq_of_getLsbD_eq
    intro i hi
    rw [BitVec.getLsbD_and, hy i hi]
    by_cases he : i = k
    · subst he; simp [h]
    · simp [he]
  · rw [bne_iff_ne]
    intro hc
    have := congrArg (fun v => v.getLsbD k) hc
    simp [h, hy k hk] at this

/-- The header bits of a record say its status and length. -/
theorem header_busy (r : Rec) (h : r.len < 2 ^ 30) : isBusy r.header = decide (r.status = .busy) := by
  unfold isBusy
  rw [and_bit _ _ 31 (by omega) busy_bit, header_bit r 31 (by omega), len_bit r.len 31 h (by omega)]
  simp

theorem header_discard (r : Rec) (h : r.len < 2 ^ 30) : isDiscard r.header = decide (r.status = .discarded) := by
  unfold isDiscard
  rw [and_bit _ _ 30 (by omega) discard_bit, header_bit r 30 (by omega), len_bit r.len 30 h (by omega)]
  simp

theorem header_len (r : Rec) (h : r.len < 2 ^ 30) : dataLen r.header = r.len := by
  have e : r.header &&& ~~~(BUSY ||| DISCARD) = BitVec.ofNat 32 r.len := by
    apply BitVec.eq_of_getLsbD_eq
    intro i hi
    rw [BitVec.getLsbD_and, BitVec.getLsbD_not, BitVec.getLsbD_or, busy_bit i hi, discard_bit i hi, header_bit r i hi]
    by_cases h30 : 30 ≤ i
    · rw [len_bit r.len i h h30]
      have h3 : i = 30 ∨ i = 31 := by omega
      rcases h3 with rfl | rfl <;> simp
    · have n1 : i ≠ 30 := by omega
      have n2 : i ≠ 31 := by omega
      simp [hi, n1, n2]
  unfold dataLen
  rw [e, BitVec.toNat_ofNat, Nat.mod_eq_of_lt (by omega)]

theorem header_aligned (r : Rec) (h : r.len < 2 ^ 30) : 8 + dataLenAligned r.header = r.space := by
  simp [dataLenAligned, header_len r h, Rec.space]

/-! ## Logical positions -/
theorem pos_succ (s : St) (i : Nat) (r : Rec) (h : s.recs[i]? = some r) : s.pos (i + 1) = s.pos i + r.space := by
  simp [St.pos, List.take_add_one, h]; omega

theorem sum_take_mono (l : List Nat) (i j : Nat) (h : i ≤ j) : (l.take i).sum ≤ (l.take j).sum := by
  induction j with
  | zero => simp [show i = 0 by omega]
  | succ j ih =>
    by_cases he : i = j + 1
    · simp [he]
    · have := ih (by omega)
      rw [List.take_add_one, List.sum_append]
      omega

theorem pos_mono (s : St) (i j : Nat) (h : i ≤ j) : s.pos i ≤ s.pos j := by
  have := sum_take_mono (s.recs.map Rec.space) i j h
  simp only [St.pos, List.map_take]
  omega

/-- Positions only depend on the lengths of the records. -/
theorem pos_congr (s s' : St) (i : Nat) (hb : s'.base = s.base) (h : (s'.recs.take i).map Rec.space = (s.recs.take i).map Rec.space) :
    s'.pos i = s.pos i := by simp [St.pos, hb, h]

theorem space_ge (r : Rec) : 8 + r.len ≤ r.space := by unfold Rec.space; omega

end Ebpf.Ringbuf

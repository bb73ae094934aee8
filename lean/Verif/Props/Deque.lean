import Verif.Spec.Deque
/-! # C40: `internal.Deque` behaves as a list for every history -/
namespace Ebpf.Deque
variable {α : Type}

/-- Ring part of the representation relation, for capacity `2^k`. -/
structure Ring (d : Deque α) (l : List α) (k : Nat) : Prop where
  hk : k ≤ 62
  len : d.elems.length = 2 ^ k
  mask : d.mask = BitVec.ofNat 64 (2 ^ k) - 1
  write : d.write = d.read + BitVec.ofNat 64 l.length
  fits : l.length ≤ 2 ^ k
  at_ : ∀ i (h : i < l.length), d.elems[(d.read.toNat + i) % 2 ^ k]? = some l[i]

/-- `d` represents the list `l`. -/
def Rep (d : Deque α) (l : List α) : Prop :=
  (d.elems = [] ∧ d.mask = 0 ∧ d.write = d.read ∧ l = []) ∨ ∃ k, Ring d l k

theorem pow_le (k : Nat) (hk : k ≤ 62) : 2 ^ k ≤ 2 ^ 62 := Nat.pow_le_pow_right (by omega) hk

theorem one_toNat : (1 : BitVec 64).toNat = 1 := rfl

theorem mask_and (x : BitVec 64) (k : Nat) (hk : k ≤ 62) :
    (x &&& (BitVec.ofNat 64 (2 ^ k) - 1)).toNat = x.toNat % 2 ^ k := by
  have h1 : (BitVec.ofNat 64 (2 ^ k) - 1).toNat = 2 ^ k - 1 := by
    have := pow_le k hk
    have h2 : 0 < 2 ^ k := Nat.two_pow_pos k
    rw [BitVec.toNat_sub, one_toNat]; simp only [BitVec.toNat_ofNat]
    omega
  rw [BitVec.toNat_and, h1, Nat.and_two_pow_sub_one_eq_mod]

theorem add_mod (x : BitVec 64) (n k : Nat) (hk : k ≤ 62) :
    (x + BitVec.ofNat 64 n).toNat % 2 ^ k = (x.toNat + n) % 2 ^ k := by
  have hd : 2 ^ k ∣ 2 ^ 64 := Nat.pow_dvd_pow 2 (by omega)
  rw [BitVec.toNat_add, BitVec.toNat_ofNat, Nat.add_mod_mod, Nat.mod_mod_of_dvd _ hd]

theorem new_rep : Rep (new : Deque α) [] := Or.inl ⟨rfl, rfl, rfl, rfl⟩

theorem have_eq (d : Deque α) (l : List α) (h : Rep d l) :
    d.write - d.read = BitVec.ofNat 64 l.length ∧ l.length ≤ 2 ^ 62 ∧ l.length ≤ d.elems.length := by
  rcases h with ⟨he, _, hw, hl⟩ | ⟨k, r⟩
  · subst hl; rw [hw]; simp
  · refine ⟨?_, ?_, ?_⟩
    · rw [r.write]; apply BitVec.eq_of_toNat_eq; simp; omega
    · have := pow_le k r.hk; have := r.fits; omega
    · rw [r.len]; exact r.fits

theorem bitLen_spec (x : Nat) : x < 2 ^ bitLen x := by
  unfold bitLen; split
  · subst x; simp
  · exact Nat.lt_log2_self

theorem bitLen_le (x k : Nat) (h : x < 2 ^ k) : bitLen x ≤ k := by
  unfold bitLen; split
  · omega
  · have := (Nat.log2_lt ‹_›).2 h; omega

theorem capacity_spec (m : Nat) (h0 : 0 < m) (hm : m ≤ 2 ^ 62) :
    ∃ k, k ≤ 62 ∧ capacityFor (BitVec.ofNat 64 m) = 2 ^ k ∧ m ≤ 2 ^ k := by
  have e1 : (BitVec.ofNat 64 m - 1).toNat = m - 1 := by
    rw [BitVec.toNat_sub, one_toNat]; simp only [BitVec.toNat_ofNat]; omega
  have hb := bitLen_spec (m - 1)
  have hb2 := bitLen_le (m - 1) 62 (by omega)
  have hp := pow_le _ hb2
  unfold capacityFor
  rw [e1]
  generalize hB : bitLen (m - 1) = B at *
  generalize hP : 2 ^ B = P at *
  have e2 : (BitVec.ofNat 64 P).toInt = P := by
    rw [BitVec.toInt_ofNat']
    exact Int.bmod_eq_of_le (by omega) (by omega)
  rw [e2]
  by_cases h : 8 ≤ P
  · exact ⟨B, hb2, by omega, by omega⟩
  · exact ⟨3, by omega, by omega, by omega⟩

theorem getElem?_rotate (l : List α) (p i : Nat) (hp : p < l.length) (hi : i < l.length) :
    (l.drop p ++ l.take p)[i]? = l[(p + i) % l.length]? := by
  rw [List.getElem?_append]
  split
  · next h =>
    simp only [List.length_drop] at h
    rw [List.getElem?_drop, Nat.mod_eq_of_lt (by omega)]
  · next h =>
    simp only [List.length_drop] at h ⊢
    rw [List.getElem?_take]
    have e : (p + i) % l.length = i - (l.length - p) := by
      rw [Nat.mod_eq_sub_mod (by omega), Nat.mod_eq_of_lt (by omega)]; omega
    rw [e]; split
    · rfl
    · omega

theorem rotated (d : Deque α) (l : List α) (k : Nat) (r : Ring d l k) :
    (d.elems.drop (d.read.toNat % 2 ^ k) ++ d.elems.take (d.read.toNat % 2 ^ k)).take l.length = l := by
  have hp : d.read.toNat % 2 ^ k < 2 ^ k := Nat.mod_lt _ (Nat.two_pow_pos k)
  apply List.ext_getElem?
  intro i
  rw [List.getElem?_take]
  split
  · next h =>
    rw [getElem?_rotate _ _ _ (by rw [r.len]; exact hp) (by rw [r.len]; have := r.fits; omega), r.len,
      Nat.mod_add_mod, r.at_ i h, List.getElem?_eq_getElem h]
  · next h => rw [List.getElem?_eq_none (by omega)]

theorem grow_rep (zero : α) (d : Deque α) (l : List α) (n : Int) (h : Rep d l) (hn : 0 ≤ n)
    (hf : (l.length : Int) + n ≤ 2 ^ 62) :
    ∃ d', d.grow zero n = some d' ∧ Rep d' l ∧ (l.length : Int) + n ≤ d'.elems.length := by
  obtain ⟨hh, hl, hcap⟩ := have_eq d l h
  obtain ⟨m, rfl⟩ := Int.eq_ofNat_of_zero_le hn
  have hf' : l.length + m ≤ 2 ^ 62 := by exact_mod_cast hf
  have hneed : BitVec.ofNat 64 l.length + BitVec.ofInt 64 (m : Int) = BitVec.ofNat 64 (l.length + m) := by
    apply BitVec.eq_of_toNat_eq
    simp only [BitVec.toNat_add, BitVec.toNat_ofNat, BitVec.ofInt_natCast]; omega
  have hnn : (BitVec.ofNat 64 (l.length + m)).toNat = l.length + m := by
    rw [BitVec.toNat_ofNat]; omega
  have hhn : (BitVec.ofNat 64 l.length).toNat = l.length := by rw [BitVec.toNat_ofNat]; omega
  unfold grow
  simp only [hh, hneed, hnn, hhn]
  rw [if_neg (by rw [BitVec.lt_def, hnn, hhn]; omega)]
  by_cases hge : d.elems.length ≥ l.length + m
  · exact ⟨d, by rw [if_pos hge], h, by omega⟩
  · obtain ⟨k, hk, ec, hm⟩ := capacity_spec (l.length + m) (by omega) hf'
    have hlast : ∃ p, (d.read &&& d.mask).toNat = p ∧ p ≤ d.elems.length ∧
        (d.elems.drop p ++ d.elems.take p).take l.length = l := by
      rcases h with ⟨he, hm, hw, hl⟩ | ⟨k, r⟩
      · subst hl; exact ⟨0, by rw [‹d.mask = 0›]; simp, by omega, by simp⟩
      · refine ⟨d.read.toNat % 2 ^ k, ?_, ?_, rotated d l k r⟩
        · rw [r.mask, mask_and _ _ r.hk]
        · rw [r.len]; exact Nat.le_of_lt (Nat.mod_lt _ (Nat.two_pow_pos k))
    obtain ⟨p, ep, hp, erot⟩ := hlast
    rw [if_neg hge, ep, ec, if_neg (by omega), if_neg (by omega), erot]
    refine ⟨_, rfl, Or.inr ⟨k, hk, by simp; omega, rfl, by simp, by omega, ?_⟩, by simp; omega⟩
    intro i hi
    have z : (0 : BitVec 64).toNat = 0 := rfl
    simp only [z, Nat.zero_add]
    rw [Nat.mod_eq_of_lt (by omega), List.getElem?_append_left hi, List.getElem?_eq_getElem hi]

theorem mod_ne (x a b n : Nat) (hab : a < b) (hb : b < a + n) : (x + a) % n ≠ (x + b) % n := by
  intro h
  have h1 := Nat.sub_mod_eq_zero_of_mod_eq h.symm
  rw [show x + b - (x + a) = b - a by omega, Nat.mod_eq_of_lt (by omega)] at h1
  omega

theorem push_rep (zero : α) (d : Deque α) (l : List α) (e : α) (h : Rep d l) (hf : l.length + 1 ≤ 2 ^ 62) :
    ∃ d', d.push zero e = some d' ∧ Rep d' (l ++ [e]) := by
  obtain ⟨g, hg, hr, hc⟩ := grow_rep zero d l 1 h (by omega) (by exact_mod_cast hf)
  have hc' : l.length + 1 ≤ g.elems.length := by exact_mod_cast hc
  rcases hr with ⟨he, _, _, _⟩ | ⟨k, r⟩
  · rw [he] at hc'; simp at hc'
  · have ew : (g.write &&& g.mask).toNat = (g.read.toNat + l.length) % 2 ^ k := by
      rw [r.mask, mask_and _ _ r.hk, r.write, add_mod _ _ _ r.hk]
    have hlt : (g.read.toNat + l.length) % 2 ^ k < g.elems.length := by
      rw [r.len]; exact Nat.mod_lt _ (Nat.two_pow_pos k)
    unfold push
    simp only [hg, Option.bind_eq_bind, Option.bind_some, store, ew, hlt, if_true]
    refine ⟨_, rfl, Or.inr ⟨k, r.hk, by simp [r.len], r.mask, ?_, ?_, ?_⟩⟩
    · simp only [r.write, List.length_append, List.length_singleton]
      rw [BitVec.add_assoc]; congr 1
      apply BitVec.eq_of_toNat_eq; simp
    · rw [r.len] at hc'; simpa using hc'
    · intro i hi
      simp only [List.length_append, List.length_singleton] at hi
      rw [r.len] at hc'
      dsimp only
      rcases Nat.lt_or_ge i l.length with hlt' | hge
      · rw [List.getElem?_set_ne (mod_ne _ i l.length _ hlt' (by omega)).symm, r.at_ i hlt']
        simp [List.getElem_append_left hlt']
      · obtain rfl : i = l.length := by omega
        rw [List.getElem?_set_self hlt]; simp

theorem rep_empty (d : Deque α) (l : List α) (h : Rep d l) : d.empty = l.isEmpty := by
  rcases h with ⟨_, _, hw, hl⟩ | ⟨k, r⟩
  · subst hl; simp [empty, hw]
  · have := r.fits; have := pow_le k r.hk
    unfold empty
    rw [r.write, Bool.eq_iff_iff, beq_iff_eq, List.isEmpty_iff]
    constructor
    · intro he
      have := congrArg BitVec.toNat he
      rw [BitVec.toNat_add, BitVec.toNat_ofNat] at this
      have : l.length = 0 := by omega
      exact List.length_eq_zero_iff.1 this
    · rintro rfl; simp

theorem shift_rep (zero : α) (d : Deque α) (l : List α) (h : Rep d l) :
    ∃ d', d.shift zero = some (l.head?.getD zero, d') ∧ Rep d' l.tail := by
  have hem := rep_empty d l h
  unfold shift
  cases l with
  | nil => exact ⟨d, by simp [hem], h⟩
  | cons a l =>
    rcases h with ⟨_, _, _, hl⟩ | ⟨k, r⟩
    · cases hl
    have er : (d.read &&& d.mask).toNat = (d.read.toNat + 0) % 2 ^ k := by
      rw [r.mask, mask_and _ _ r.hk, Nat.add_zero]
    have hlt : (d.read.toNat + 0) % 2 ^ k < d.elems.length := by
      rw [r.len]; exact Nat.mod_lt _ (Nat.two_pow_pos k)
    have h0 := r.at_ 0 (by simp)
    have hfit := r.fits
    simp only [List.length_cons] at hfit
    simp only [hem, List.isEmpty_cons, er, h0, Option.bind_eq_bind, Option.bind_some, store, hlt, if_true,
      Bool.false_eq_true, if_false]
    refine ⟨_, rfl, Or.inr ⟨k, r.hk, by simp [r.len], r.mask, ?_, ?_, ?_⟩⟩
    · simp only [r.write, List.length_cons, List.tail_cons]
      rw [BitVec.add_assoc]; congr 1
      apply BitVec.eq_of_toNat_eq; simp; omega
    · simp; omega
    · intro i hi
      simp only [List.tail_cons] at hi
      dsimp only
      have e := add_mod (d.read + 1) i k r.hk
      have e2 : (d.read + 1 + BitVec.ofNat 64 i) = d.read + BitVec.ofNat 64 (i + 1) := by
        rw [BitVec.add_assoc]; congr 1; apply BitVec.eq_of_toNat_eq; simp; omega
      rw [← e, e2, add_mod _ _ _ r.hk]
      rw [List.getElem?_set_ne (mod_ne _ 0 (i + 1) _ (by omega) (by omega)), r.at_ (i + 1) (by simpa using hi)]
      simp

theorem pop_rep (zero : α) (d : Deque α) (l : List α) (h : Rep d l) :
    ∃ d', d.pop zero = some (l.getLast?.getD zero, d') ∧ Rep d' l.dropLast := by
  have hem := rep_empty d l h
  unfold pop
  rcases List.eq_nil_or_concat l with rfl | ⟨l, a, hc⟩
  · exact ⟨d, by simp [hem], h⟩
  · rw [List.concat_eq_append] at hc; subst hc
    rcases h with ⟨_, _, _, hl⟩ | ⟨k, r⟩
    · simp at hl
    have hfit := r.fits
    simp only [List.length_append, List.length_singleton] at hfit
    have ew1 : d.write - 1 = d.read + BitVec.ofNat 64 l.length := by
      rw [r.write]; apply BitVec.eq_of_toNat_eq
      simp only [List.length_append, List.length_singleton, BitVec.toNat_sub, BitVec.toNat_add, BitVec.toNat_ofNat,
        one_toNat]
      omega
    have ew : ((d.write - 1) &&& d.mask).toNat = (d.read.toNat + l.length) % 2 ^ k := by
      rw [r.mask, mask_and _ _ r.hk, ew1, add_mod _ _ _ r.hk]
    have hlt : (d.read.toNat + l.length) % 2 ^ k < d.elems.length := by
      rw [r.len]; exact Nat.mod_lt _ (Nat.two_pow_pos k)
    have h0 := r.at_ l.length (by simp)
    have hne : (l ++ [a]).isEmpty = false := by simp
    have hla : (l ++ [a])[l.length]'(by simp) = a := by simp
    rw [hla] at h0
    have hlast : (l ++ [a]).getLast?.getD zero = a := by simp
    rw [hlast]
    simp only [hem, hne, ew, h0, Option.bind_eq_bind, Option.bind_some, store, hlt, if_true,
      Bool.false_eq_true, if_false]
    refine ⟨_, rfl, Or.inr ⟨k, r.hk, by simp [r.len], r.mask, ?_, ?_, ?_⟩⟩
    · rw [ew1]; simp
    · simp only [List.dropLast_concat]; omega
    · intro i hi
      have hi' : i < l.length := by simpa using hi
      dsimp only
      rw [List.getElem?_set_ne (mod_ne _ i l.length _ (by omega) (by omega)).symm,
        r.at_ i (by simp; omega)]
      simp [List.getElem_append_left hi']

theorem resetLoop_ok (zero : α) (n : Nat) : ∀ (d : Deque α) (i : BitVec 64) (k : Nat), k ≤ 62 →
    d.elems.length = 2 ^ k → d.mask = BitVec.ofNat 64 (2 ^ k) - 1 →
    ∃ d', resetLoop zero d n i = some d' ∧ d'.elems.length = 2 ^ k ∧ d'.mask = d.mask := by
  induction n with
  | zero => intro d i k _ h _; exact ⟨d, rfl, h, rfl⟩
  | succ n ih =>
    intro d i k hk h hm
    have e : (i &&& d.mask).toNat < d.elems.length := by
      rw [hm, mask_and _ _ hk, h]; exact Nat.mod_lt _ (Nat.two_pow_pos k)
    obtain ⟨d', e1, e2, e3⟩ := ih { d with elems := d.elems.set (i &&& d.mask).toNat zero } (i + 1) k hk
      (by simpa using h) hm
    exact ⟨d', by simp only [resetLoop, store, e, if_true, Option.bind_eq_bind, Option.bind_some, e1], e2, e3⟩

theorem reset_rep (zero : α) (d : Deque α) (l : List α) (h : Rep d l) :
    ∃ d', d.reset zero = some d' ∧ Rep d' [] := by
  unfold reset
  rcases h with ⟨he, hm, hw, _⟩ | ⟨k, r⟩
  · refine ⟨{ d with read := 0, write := 0 }, ?_, Or.inl ⟨he, hm, rfl, rfl⟩⟩
    simp [hw, resetLoop]
  · obtain ⟨d', e1, e2, e3⟩ := resetLoop_ok zero (d.write.toNat - d.read.toNat) d d.read k r.hk r.len r.mask
    exact ⟨{ d' with read := 0, write := 0 }, by simp [e1],
      Or.inr ⟨k, r.hk, e2, by simpa [e3] using r.mask, by simp, by simp, by simp⟩⟩

theorem run_rep (zero : α) (ops : List (Op α)) : ∀ (d : Deque α) (l : List α), Rep d l →
    Spec.Deque.Fits zero l ops → d.run zero ops = some (Spec.Deque.run zero l ops) := by
  induction ops with
  | nil => intros; rfl
  | cons o os ih =>
    intro d l h hf
    obtain ⟨ho, hf⟩ := hf
    cases o with
    | push e =>
      obtain ⟨d', e1, r⟩ := push_rep zero d l e h ho
      simp [run, step, e1, ih d' _ r hf, Spec.Deque.run, Spec.Deque.step]
    | shift =>
      obtain ⟨d', e1, r⟩ := shift_rep zero d l h
      simp [run, step, e1, ih d' _ r hf, Spec.Deque.run, Spec.Deque.step]
    | pop =>
      obtain ⟨d', e1, r⟩ := pop_rep zero d l h
      simp [run, step, e1, ih d' _ r hf, Spec.Deque.run, Spec.Deque.step]
    | grow n =>
      obtain ⟨d', e1, r, _⟩ := grow_rep zero d l n h ho.1 ho.2
      simp [run, step, e1, ih d' _ r hf, Spec.Deque.run, Spec.Deque.step]
    | reset =>
      obtain ⟨d', e1, r⟩ := reset_rep zero d l h
      simp [run, step, e1, ih d' _ r hf, Spec.Deque.run, Spec.Deque.step]
    | empty =>
      simp [run, step, ih d _ h hf, Spec.Deque.run, Spec.Deque.step, rep_empty d l h]

/-- **C40**. Starting from the zero `Deque`, every history of `Push`, `Shift`, `Pop`, `Grow`,
`Reset` and `Empty` calls (which does not request 2^62 or more slots) runs without panic and
returns what the same history returns on a plain list. The read and write counters may wrap
around 2^64 any number of times. -/
theorem deque_refines_list (zero : α) (ops : List (Op α)) (hf : Spec.Deque.Fits zero [] ops) :
    run zero new ops = some (Spec.Deque.run zero [] ops) :=
  run_rep zero ops new [] new_rep hf

/-- Non-vacuity: a history which grows, wraps and empties the buffer. -/
def sampleOps : List (Op Nat) :=
  [.push 1, .push 2, .shift, .grow 20, .push 3, .pop, .empty, .shift, .shift, .empty]

example : Spec.Deque.Fits 0 [] sampleOps := by
  simp [Spec.Deque.Fits, sampleOps, Spec.Deque.step]
example : run 0 new sampleOps =
    some [.unit, .unit, .elem 1, .unit, .unit, .elem 3, .bool false, .elem 2, .elem 0, .bool true] := by
  decide

/-- A negative argument to `Grow` panics as soon as an element is queued. -/
theorem grow_negative_panics (zero : α) (d : Deque α) (l : List α) (n : Nat) (h : Rep d l)
    (hn : 0 < n) (hle : n ≤ l.length) : d.grow zero (-(n : Int)) = none := by
  obtain ⟨hh, hl, _⟩ := have_eq d l h
  unfold grow
  simp only [hh]
  rw [if_pos]
  rw [BitVec.lt_def, BitVec.toNat_add, BitVec.toNat_ofNat, BitVec.toNat_ofInt]
  omega

end Ebpf.Deque

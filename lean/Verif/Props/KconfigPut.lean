import Verif.Model.Kconfig
import Verif.Spec.Kconfig
/-! # C46: `PutInteger` / `PutValue` store numbers exactly or fail -/
namespace Ebpf.Kconfig
open Ebpf.Spec.Kconfig

theorem ex8 {w : Nat} (x : BitVec w) (s : Nat) : (x.extractLsb' s 8).toNat = x.toNat / 2 ^ s % 256 := by
  rw [BitVec.extractLsb'_toNat, Nat.shiftRight_eq_div_pow]

theorem value_put8 (bo : ByteOrder) (x : BitVec 8) : value bo [x] = x.toNat := by
  cases bo <;> simp [value, leValue]

theorem value_put16 (bo : ByteOrder) (x : BitVec 16) : value bo (bo.put16 x) = x.toNat := by
  have := x.isLt
  cases bo <;> simp only [value, ByteOrder.put16, List.reverse_cons, List.reverse_nil, List.nil_append,
    List.cons_append, leValue, ex8] <;> omega

theorem value_put32 (bo : ByteOrder) (x : BitVec 32) : value bo (bo.put32 x) = x.toNat := by
  have := x.isLt
  cases bo <;> simp only [value, ByteOrder.put32, List.reverse_cons, List.reverse_nil, List.nil_append,
    List.cons_append, leValue, ex8] <;> omega

theorem value_put64 (bo : ByteOrder) (x : BitVec 64) : value bo (bo.put64 x) = x.toNat := by
  have := x.isLt
  cases bo <;> simp only [value, ByteOrder.put64, ByteOrder.put32, List.reverse_cons, List.reverse_nil, List.nil_append,
    List.cons_append, leValue, BitVec.extractLsb'_toNat, Nat.shiftRight_eq_div_pow] <;> omega

theorem put16_length (bo : ByteOrder) (x : BitVec 16) : (bo.put16 x).length = 2 := by cases bo <;> rfl
theorem put32_length (bo : ByteOrder) (x : BitVec 32) : (bo.put32 x).length = 4 := by cases bo <;> rfl
theorem put64_length (bo : ByteOrder) (x : BitVec 64) : (bo.put64 x).length = 8 := by cases bo <;> rfl

/-- `d` is `data` with the first `size` bytes replaced. -/
def Replaced (data d : Bytes) (size : Nat) : Prop :=
  size ≤ data.length ∧ d.length = data.length ∧ d.drop size = data.drop size

theorem overwrite_spec (data w : Bytes) (h : w.length ≤ data.length) :
    Replaced data (overwrite data w) w.length ∧ (overwrite data w).take w.length = w := by
  unfold Replaced overwrite
  refine ⟨⟨h, by simp; omega, by simp⟩, by simp⟩

/-- The sizes for which integers can be stored. -/
def ValidSize (size : BitVec 32) : Prop := size = 1 ∨ size = 2 ∨ size = 4 ∨ size = 8

theorem putInteger_ok (bo : ByteOrder) (data d : Bytes) (t : IntType) (n : BitVec 64)
    (h : putInteger bo data t n = .ok d) :
    ValidSize t.size ∧ Replaced data d t.size.toNat ∧
    value bo (d.take t.size.toNat) = n.toNat % 2 ^ (8 * t.size.toNat) ∧
    (t.enc = .signed → -(2 ^ (8 * t.size.toNat - 1)) ≤ n.toInt ∧ n.toInt < 2 ^ (8 * t.size.toNat - 1)) ∧
    (t.enc = .bool → n.toNat ≤ 1) := by
  unfold putInteger at h
  split at h
  · cases h
  next hb =>
  have hbool : t.enc = .bool → n.toNat ≤ 1 := by
    intro he
    have : ¬ n > 1 := fun hc => hb ⟨he, hc⟩
    have h1 : (1 : BitVec 64).toNat = 1 := rfl
    rw [gt_iff_lt, BitVec.lt_def, h1] at this
    omega
  split at h
  · cases h
  next hl =>
  have hn := n.isLt
  split at h
  · next hs =>
    have hsz : t.size.toNat = 1 := by rw [hs]; rfl
    rw [hsz] at hl ⊢
    split at h
    · cases h
    next hf =>
    injection h with h; subst h
    have := overwrite_spec data [n.setWidth 8] (by simpa using by omega)
    refine ⟨Or.inl hs, this.1, ?_, ?_, hbool⟩
    · rw [show 1 = [n.setWidth 8].length from rfl, this.2, value_put8]; simp
    · intro he
      have : fitsSigned 8 n = true := by simpa [he] using hf
      simp [fitsSigned] at this; omega
  split at h
  · next hs =>
    have hsz : t.size.toNat = 2 := by rw [hs]; rfl
    rw [hsz] at hl ⊢
    split at h
    · cases h
    next hf =>
    injection h with h; subst h
    have := overwrite_spec data (bo.put16 (n.setWidth 16)) (by rw [put16_length]; omega)
    rw [put16_length] at this
    refine ⟨Or.inr (Or.inl hs), this.1, ?_, ?_, hbool⟩
    · rw [this.2, value_put16]; simp
    · intro he
      have : fitsSigned 16 n = true := by simpa [he] using hf
      simp [fitsSigned] at this; omega
  split at h
  · next hs =>
    have hsz : t.size.toNat = 4 := by rw [hs]; rfl
    rw [hsz] at hl ⊢
    split at h
    · cases h
    next hf =>
    injection h with h; subst h
    have := overwrite_spec data (bo.put32 (n.setWidth 32)) (by rw [put32_length]; omega)
    rw [put32_length] at this
    refine ⟨Or.inr (Or.inr (Or.inl hs)), this.1, ?_, ?_, hbool⟩
    · rw [this.2, value_put32]; simp
    · intro he
      have : fitsSigned 32 n = true := by simpa [he] using hf
      simp [fitsSigned] at this; omega
  split at h
  · next hs =>
    have hsz : t.size.toNat = 8 := by rw [hs]; rfl
    rw [hsz] at hl ⊢
    injection h with h; subst h
    have := overwrite_spec data (bo.put64 n) (by rw [put64_length]; omega)
    rw [put64_length] at this
    refine ⟨Or.inr (Or.inr (Or.inr hs)), this.1, ?_, ?_, hbool⟩
    · rw [this.2, value_put64, Nat.mod_eq_of_lt (by omega)]
    · intro _
      have := BitVec.two_mul_toInt_lt (x := n); have := BitVec.le_two_mul_toInt (x := n)
      omega
  · cases h

theorem take_length (data d : Bytes) (size : Nat) (h : Replaced data d size) : (d.take size).length = size := by
  have := h.1; have := h.2.1; simp; omega

theorem signed_of_mod (n : BitVec 64) (s : Nat) (hs : s = 1 ∨ s = 2 ∨ s = 4 ∨ s = 8)
    (h1 : -(2 ^ (8 * s - 1)) ≤ n.toInt) (h2 : n.toInt < 2 ^ (8 * s - 1)) :
    (if n.toNat % 2 ^ (8 * s) < 2 ^ (8 * s - 1) then ((n.toNat % 2 ^ (8 * s) : Nat) : Int)
      else ((n.toNat % 2 ^ (8 * s) : Nat) : Int) - 2 ^ (8 * s)) = n.toInt := by
  have hn := n.isLt
  rw [BitVec.toInt_eq_toNat_cond] at *
  rcases hs with rfl | rfl | rfl | rfl <;> (simp only [Nat.reduceMul, Nat.reduceSub] at h1 h2 ⊢; split at h1 <;> split <;> omega)

/-- **C46, signed integers**: when `PutInteger` succeeds for a signed integer type, the bytes of the
declared size read back (two's complement) as `n`, and nothing else changes. -/
theorem putInteger_signed (bo : ByteOrder) (data d : Bytes) (t : IntType) (n : BitVec 64)
    (ht : t.enc = .signed) (h : putInteger bo data t n = .ok d) :
    Replaced data d t.size.toNat ∧ signedValue bo (d.take t.size.toNat) = n.toInt := by
  obtain ⟨hv, hr, hval, hs, _⟩ := putInteger_ok bo data d t n h
  refine ⟨hr, ?_⟩
  obtain ⟨h1, h2⟩ := hs ht
  unfold signedValue
  rw [take_length data d _ hr, hval]
  refine signed_of_mod n t.size.toNat ?_ h1 h2
  rcases hv with h | h | h | h <;> rw [h] <;> decide

/-- The full property for unsigned types: the stored bytes read back as `n` whenever the call succeeds. -/
def UnsignedExact (bo : ByteOrder) (data : Bytes) (t : IntType) (n : BitVec 64) : Prop :=
  ∀ d, putInteger bo data t n = .ok d → value bo (d.take t.size.toNat) = n.toNat

/-- **C46 is false for unsigned types**: 256 is stored into a one byte integer as 0, without an error. -/
theorem putInteger_unsigned_counterexample :
    ¬ ∀ bo data t n, t.enc = .unsigned → UnsignedExact bo data t n := by
  intro h
  have := h .little [7] ⟨1, .unsigned⟩ 256 rfl [0] (by rfl)
  revert this; decide

/-- **C46, part that holds for unsigned, char and bool types**: the value is stored modulo the size, so it
reads back as `n` when `n` fits (always for bool and for size 8). Missing: a range check. -/
theorem putInteger_unsigned_partial (bo : ByteOrder) (data d : Bytes) (t : IntType) (n : BitVec 64)
    (h : putInteger bo data t n = .ok d) :
    Replaced data d t.size.toNat ∧
    value bo (d.take t.size.toNat) = n.toNat % 2 ^ (8 * t.size.toNat) ∧
    (n.toNat < 2 ^ (8 * t.size.toNat) ∨ t.enc = .bool → value bo (d.take t.size.toNat) = n.toNat) := by
  obtain ⟨hv, hr, hval, _, hb⟩ := putInteger_ok bo data d t n h
  refine ⟨hr, hval, ?_⟩
  intro hor
  rw [hval, Nat.mod_eq_of_lt]
  rcases hor with h | h
  · exact h
  · have := hb h
    rcases hv with h | h | h | h <;> rw [h] <;>
      first
        | exact Nat.lt_of_le_of_lt this (by decide)

theorem fits_iff (n : BitVec 64) (k : Nat) (hk : k = 8 ∨ k = 16 ∨ k = 32) :
    fitsSigned k n = true ↔ -(2 ^ (k - 1)) ≤ n.toInt ∧ n.toInt < 2 ^ (k - 1) := by
  rcases hk with rfl | rfl | rfl <;> (simp [fitsSigned]; omega)

/-- **C46, no needless rejection**: a value in range of a 1, 2, 4 or 8 byte type is accepted if there is room. -/
theorem putInteger_accepts (bo : ByteOrder) (data : Bytes) (t : IntType) (n : BitVec 64)
    (hv : ValidSize t.size) (hroom : t.size.toNat ≤ data.length)
    (hb : t.enc = .bool → n.toNat ≤ 1)
    (hs : t.enc = .signed → -(2 ^ (8 * t.size.toNat - 1)) ≤ n.toInt ∧ n.toInt < 2 ^ (8 * t.size.toNat - 1)) :
    ∃ d, putInteger bo data t n = .ok d := by
  have h1 : ¬ (t.enc = .bool ∧ n > 1) := by
    rintro ⟨he, hc⟩
    have := hb he
    rw [gt_iff_lt, BitVec.lt_def, show (1 : BitVec 64).toNat = 1 from rfl] at hc
    omega
  unfold putInteger
  rw [if_neg h1, if_neg (by omega)]
  rcases t with ⟨size, enc⟩
  simp only at *
  rcases hv with h | h | h | h <;> subst h
  · have : ¬ (enc = .signed ∧ ¬ fitsSigned 8 n = true) := by
      rintro ⟨he, hf⟩; exact hf ((fits_iff n 8 (by simp)).2 (hs he))
    rw [if_pos rfl, if_neg this]; exact ⟨_, rfl⟩
  · have : ¬ (enc = .signed ∧ ¬ fitsSigned 16 n = true) := by
      rintro ⟨he, hf⟩; exact hf ((fits_iff n 16 (by simp)).2 (hs he))
    rw [if_neg (by decide), if_pos rfl, if_neg this]; exact ⟨_, rfl⟩
  · have : ¬ (enc = .signed ∧ ¬ fitsSigned 32 n = true) := by
      rintro ⟨he, hf⟩; exact hf ((fits_iff n 32 (by simp)).2 (hs he))
    rw [if_neg (by decide), if_neg (by decide), if_pos rfl, if_neg this]; exact ⟨_, rfl⟩
  · rw [if_neg (by decide), if_neg (by decide), if_neg (by decide), if_pos rfl]; exact ⟨_, rfl⟩

/-- **C46, through the config parser**: whatever number `v` a config value denotes, `PutValue` into an
integer type either fails or stores bytes that read back as `v` (here the unsigned case is exact,
because the parser checks the range first). -/
theorem putValueNumber_exact (bo : ByteOrder) (data d : Bytes) (t : IntType) (v : Option Int)
    (h : putValueNumber bo data (.int t) v = .ok d) :
    ∃ x, v = some x ∧ Replaced data d t.size.toNat ∧
      (if t.enc = .signed then signedValue bo (d.take t.size.toNat) = x
        else (value bo (d.take t.size.toNat) : Int) = x) := by
  unfold putValueNumber at h
  simp only at h
  split at h
  · cases h
  next n hp =>
  obtain ⟨hv, hr, hval, _, _⟩ := putInteger_ok bo data d t n h
  have hbits : (t.size * 8).toNat = 8 * t.size.toNat ∧
      (t.size.toNat = 1 ∨ t.size.toNat = 2 ∨ t.size.toNat = 4 ∨ t.size.toNat = 8) := by
    rcases hv with h | h | h | h <;> rw [h] <;> decide
  obtain ⟨hbits, hsz⟩ := hbits
  rw [hbits] at hp
  unfold parseNum at hp
  simp only [show (8 * t.size.toNat = 0) = False from by simp; omega, if_false] at hp
  split at hp
  · cases hp
  split at hp
  · cases hp
  next x =>
  refine ⟨x, rfl, hr, ?_⟩
  by_cases he : t.enc = .signed
  · simp only [he, decide_true, if_true] at hp ⊢
    split at hp
    · cases hp
    next hrange =>
    injection hp with hp
    rw [(putInteger_signed bo data d t n he h).2, ← hp, BitVec.toInt_ofInt]
    apply Int.bmod_eq_of_le <;> rcases hsz with h | h | h | h <;> rw [h] at hrange <;> simp only [Nat.reduceMul, Nat.reduceSub] at hrange ⊢ <;> omega
  · simp only [he, decide_false, if_false, Bool.false_eq_true] at hp ⊢
    split at hp
    · cases hp
    next hrange =>
    injection hp with hp
    rw [hval, ← hp, BitVec.toNat_ofInt]
    rcases hsz with h | h | h | h <;> rw [h] at hrange ⊢ <;> simp only [Nat.reduceMul] at hrange ⊢ <;> omega

/-- Strings: the stored bytes are the text between the quotes, cut to the array and the section, and
the rest of the section is unchanged. -/
theorem putValueString_spec (data d : Bytes) (c : IntType) (nelems : BitVec 32) (value : Bytes)
    (hlen : (trimQuotes value).length < 2 ^ 32)
    (h : putValueString data (.array (some c) nelems) value = .ok d) :
    let str := ((trimQuotes value).take nelems.toNat).take data.length
    d = str ++ data.drop str.length ∧ d.length = data.length := by
  unfold putValueString at h
  simp only at h
  split at h
  · cases h
  split at h
  · cases h
  injection h with h
  subst h
  have e : (if BitVec.ofNat 32 (trimQuotes value).length ≥ nelems then (trimQuotes value).take nelems.toNat
      else trimQuotes value) = (trimQuotes value).take nelems.toNat := by
    split
    · rfl
    · next hc =>
      rw [ge_iff_le, BitVec.le_def, BitVec.toNat_ofNat, Nat.mod_eq_of_lt hlen] at hc
      rw [List.take_of_length_le (by omega)]
  simp only [e]
  refine ⟨rfl, ?_⟩
  simp [overwrite]; omega

/-- What `strings.Trim` leaves of a quoted text without further quotes at its ends. -/
theorem trimQuotes_quoted (text : Bytes) (h1 : text.head? ≠ some 0x22#8) (h2 : text.getLast? ≠ some 0x22#8) :
    trimQuotes (0x22#8 :: text ++ [0x22#8]) = text := by
  unfold trimQuotes
  cases text with
  | nil => decide
  | cons a r =>
    have ha : (a == 0x22#8) = false := by simpa using h1
    simp only [List.cons_append, List.dropWhile_cons, beq_self_eq_true, if_true, ha, Bool.false_eq_true, if_false]
    rw [← List.cons_append, List.reverse_append]
    simp only [List.reverse_cons, List.reverse_nil, List.nil_append, List.cons_append, List.dropWhile_cons, beq_self_eq_true, if_true]
    rw [← List.reverse_cons]
    have hl : (a :: r).reverse.head? ≠ some 0x22#8 := by rw [List.head?_reverse]; exact h2
    have : ∀ l : Bytes, l.head? ≠ some 0x22#8 → l.dropWhile (· == 0x22#8) = l := by
      intro l hl
      cases l with
      | nil => rfl
      | cons x t =>
        have : (x == 0x22#8) = false := by simpa using hl
        simp [this]
    rw [this _ hl, List.reverse_reverse]

/-- **C46, strings**: the config value `"text"` is stored as `text`, cut to the array and the section; the rest of
the section is unchanged. (`text` itself must not start or end with a quote, see `putValueString_spec`.) -/
theorem putValue_text (bo : ByteOrder) (data d : Bytes) (c : IntType) (nelems : BitVec 32) (text : Bytes) (num : Option Int)
    (h1 : text.head? ≠ some 0x22#8) (h2 : text.getLast? ≠ some 0x22#8) (hlen : text.length < 2 ^ 32)
    (h : putValue bo data (.array (some c) nelems) (0x22#8 :: text ++ [0x22#8]) num = .ok d) :
    let str := (text.take nelems.toNat).take data.length
    d = str ++ data.drop str.length ∧ d.length = data.length ∧ c.size = 1 ∧ c.enc ≠ .bool := by
  have hy : ¬ ((0x22#8 :: text ++ [0x22#8] = ascii "y") ∨ (0x22#8 :: text ++ [0x22#8] = ascii "n") ∨
      (0x22#8 :: text ++ [0x22#8] = ascii "m")) := by
    rintro (h | h | h) <;> · rw [List.cons_append] at h; injection h with h _; exact absurd h (by decide)
  have hq : (ascii "\"").isPrefixOf (0x22#8 :: text ++ [0x22#8]) = true := by
    have : ascii "\"" = [0x22#8] := by decide
    rw [this, List.cons_append]; simp [List.isPrefixOf]
  unfold putValue at h
  rw [if_neg hy, if_pos hq] at h
  have := putValueString_spec data d c nelems _ (by rw [trimQuotes_quoted text h1 h2]; exact hlen) h
  rw [trimQuotes_quoted text h1 h2] at this
  refine ⟨this.1, this.2, ?_⟩
  unfold putValueString at h
  simp only at h
  split at h
  · cases h
  next hc => simp only [not_or] at hc; exact ⟨Classical.not_not.1 hc.1, hc.2⟩

/-- The number `libbpf_tristate` gives to a config value. -/
def triNumber (v : Bytes) : Option Nat :=
  if v = ascii "n" then some 0 else if v = ascii "y" then some 1 else if v = ascii "m" then some 2 else none

/-- **C46, tristates**: `y`, `n`, `m` are stored as the number the declared type has for them (module: only in
`enum libbpf_tristate`), everything else is refused. -/
theorem putValue_tri (bo : ByteOrder) (data d : Bytes) (t : KTyp) (v : Bytes) (num : Option Int)
    (hv : v = ascii "y" ∨ v = ascii "n" ∨ v = ascii "m") (h : putValue bo data t v num = .ok d) :
    ∃ n, triNumber v = some n ∧
      ((∃ it, t = .int it ∧ it.enc = .bool ∧ it.size = 1 ∧ n ≤ 1 ∧ value bo (d.take 1) = n ∧ d.drop 1 = data.drop 1 ∧
          d.length = data.length) ∨
       (t = .enum (ascii "libbpf_tristate") ∧ d.length = 4 ∧ data.length = 4 ∧ value bo d = n)) := by
  unfold putValue at h
  rw [if_pos hv] at h
  have y1 : ascii "y" ≠ ascii "n" := by decide
  have y2 : ascii "m" ≠ ascii "n" := by decide
  have y3 : ascii "m" ≠ ascii "y" := by decide
  unfold putValueTri at h
  cases t with
  | int it =>
    simp only at h
    split at h
    · cases h
    next he =>
    split at h
    · cases h
    next hs =>
    have he : it.enc = .bool := Classical.not_not.1 he
    have hs : it.size = 1 := Classical.not_not.1 hs
    split at h
    next hy =>
      split at h
      · cases h
      next hd =>
      injection h with h
      subst hy h
      cases data with
      | nil => exact absurd rfl hd
      | cons x r =>
        refine ⟨1, by simp [triNumber, y1], .inl ⟨it, rfl, he, hs, by simp, ?_, by simp [overwrite], by simp [overwrite]⟩⟩
        cases bo <;> simp [overwrite, value, leValue]
    split at h
    next hy =>
      split at h
      · cases h
      next hd =>
      injection h with h
      subst hy h
      cases data with
      | nil => exact absurd rfl hd
      | cons x r =>
        refine ⟨0, by simp [triNumber], .inl ⟨it, rfl, he, hs, by simp, ?_, by simp [overwrite], by simp [overwrite]⟩⟩
        cases bo <;> simp [overwrite, value, leValue]
    · cases h
  | enum name =>
    simp only at h
    split at h
    · cases h
    next hn =>
    split at h
    · cases h
    next hl =>
    have hn : name = ascii "libbpf_tristate" := Classical.not_not.1 hn
    have hl : data.length = 4 := Classical.not_not.1 hl
    subst hn
    have hdrop : data.drop 4 = [] := List.drop_eq_nil_of_le (by omega)
    split at h
    next hy =>
      injection h with h
      subst hy h
      refine ⟨1, by simp [triNumber, y1], .inr ⟨rfl, ?_, hl, ?_⟩⟩ <;>
        · cases bo <;> simp [overwrite, ByteOrder.put32, hdrop] <;> decide
    split at h
    next hy =>
      injection h with h
      subst hy h
      refine ⟨2, by simp [triNumber, y2, y3], .inr ⟨rfl, ?_, hl, ?_⟩⟩ <;>
        · cases bo <;> simp [overwrite, ByteOrder.put32, hdrop] <;> decide
    split at h
    next hy =>
      injection h with h
      subst hy h
      refine ⟨0, by simp [triNumber], .inr ⟨rfl, ?_, hl, ?_⟩⟩ <;>
        · cases bo <;> simp [overwrite, ByteOrder.put32, hdrop] <;> decide
    · cases h
  | array c n => simp only at h; cases h
  | other => simp only at h; cases h

/-- Non-vacuity of the hypotheses. -/
example : putValue .big [7, 7, 7, 7] (.enum (ascii "libbpf_tristate")) (ascii "m") none = .ok [0, 0, 0, 2] := by decide
example : putValue .big [7, 7] (.int ⟨1, .bool⟩) (ascii "y") none = .ok [1, 7] := by decide
example : putValue .big [7, 7] (.int ⟨1, .bool⟩) (ascii "m") none = .error .error := by decide
example : putInteger .little [9, 9, 9] ⟨2, .signed⟩ (-2) = .ok [0xfe, 0xff, 9] := by decide
example : putInteger .big [9, 9, 9] ⟨2, .unsigned⟩ 0x102 = .ok [1, 2, 9] := by decide
example : putValueNumber .little [0, 0] (.int ⟨1, .signed⟩) (some (-128)) = .ok [0x80, 0] := by decide
example : putValueNumber .little [0, 0] (.int ⟨1, .unsigned⟩) (some 256) = .error .error := by decide
example : putValueString [1, 1, 1, 1] (.array (some ⟨1, .char⟩) 4) (ascii "\"ab\"") = .ok (ascii "ab" ++ [1, 1]) := by
  decide

end Ebpf.Kconfig

import Verif.Model.Tracefs
import Verif.Spec.Tracefs
/-!
# C77: trace events ask the kernel for the probe that was asked for
-/
namespace Ebpf.Tracefs
open Ebpf.TracefsSpec

/-! ## identifiers -/

theorem isLetter_iff (c : Byte) : isLetter c = true ↔ (0x61 ≤ c.toNat ∧ c.toNat ≤ 0x7a) ∨ (0x41 ≤ c.toNat ∧ c.toNat ≤ 0x5a) := by
  simp only [isLetter, Bool.or_eq_true, Bool.and_eq_true, decide_eq_true_eq, BitVec.le_def]
  rfl

theorem isDigit_iff (c : Byte) : isDigit c = true ↔ 0x30 ≤ c.toNat ∧ c.toNat ≤ 0x39 := by
  simp only [isDigit, Bool.and_eq_true, decide_eq_true_eq, BitVec.le_def]
  rfl

theorem alnum_iff (c : Byte) : (isLetter c || isDigit c) = true ↔ Alnum c := by
  rw [Bool.or_eq_true, isLetter_iff, isDigit_iff, or_assoc]
  rfl

theorem sanitize_spec : ∀ (s : Bytes), Sanitized Alnum s (sanitize false s) ∧ (∀ r, r ≠ [] → (∀ c ∈ r, ¬ Alnum c) → Sanitized Alnum (r ++ s) (0x5f#8 :: sanitize true s)) := by
  intro s
  induction s with
  | nil =>
    refine ⟨.nil, fun r hr hn => ?_⟩
    exact .run hr hn (by intro c h; cases h) .nil
  | cons c s ih =>
    by_cases hc : (isLetter c || isDigit c) = true
    · have ha := (alnum_iff c).mp hc
      refine ⟨?_, fun r hr hn => ?_⟩
      · rw [sanitize, if_pos hc]; exact .keep ha ih.1
      · rw [sanitize, if_pos hc]
        exact .run hr hn (by intro d h; cases h; exact ha) (.keep ha ih.1)
    · have ha : ¬ Alnum c := fun h => hc ((alnum_iff c).mpr h)
      refine ⟨?_, fun r hr hn => ?_⟩
      · rw [sanitize, if_neg hc]
        simp only [Bool.false_eq_true, if_false]
        exact ih.2 [c] (by simp) (by intro d h; simp only [List.mem_singleton] at h; rw [h]; exact ha)
      · rw [sanitize, if_neg hc]
        simp only [if_true]
        have := ih.2 (r ++ [c]) (by simp) (by
          intro d h
          rcases List.mem_append.mp h with h | h
          · exact hn d h
          · simp only [List.mem_singleton] at h; rw [h]; exact ha)
        rwa [List.append_assoc] at this

/-- **C77, names.** Event names are the symbol with every run of other characters replaced by one underscore, as documented. -/
theorem sanitizeIdentifier_spec (s : Bytes) : Sanitized Alnum s (sanitizeIdentifier s) := (sanitize_spec s).1

/-- **C77, names.** Groups and names accepted are those matching `^[a-zA-Z_][0-9a-zA-Z_-]*$`, as documented. -/
theorem validIdentifier_iff (s : Bytes) : validIdentifier s = true ↔ ∃ c cs, s = c :: cs ∧ (((0x61 ≤ c.toNat ∧ c.toNat ≤ 0x7a) ∨ (0x41 ≤ c.toNat ∧ c.toNat ≤ 0x5a)) ∨ c = 0x5f#8) ∧
    ∀ d ∈ cs, Alnum d ∨ d = 0x5f#8 ∨ d = 0x2d#8 := by
  cases s with
  | nil => simp [validIdentifier]
  | cons c cs =>
    simp only [validIdentifier, Bool.and_eq_true, Bool.or_eq_true, isLetter_iff, decide_eq_true_eq, List.all_eq_true, identRest, List.cons.injEq]
    constructor
    · rintro ⟨h1, h2⟩
      refine ⟨c, cs, ⟨rfl, rfl⟩, h1, fun d hd => ?_⟩
      rcases h2 d hd with ((h | h) | h) | h
      · exact Or.inl ((alnum_iff d).mp (by rw [Bool.or_eq_true, isLetter_iff]; exact Or.inl h))
      · exact Or.inr (Or.inl h)
      · exact Or.inr (Or.inr h)
      · exact Or.inl ((alnum_iff d).mp (by rw [Bool.or_eq_true]; exact Or.inr h))
    · rintro ⟨c', cs', ⟨e1, e2⟩, h1, h2⟩
      subst e1; subst e2
      refine ⟨h1, fun d hd => ?_⟩
      rcases h2 d hd with h | h | h
      · have := (alnum_iff d).mpr h
        rw [Bool.or_eq_true, isLetter_iff] at this
        rcases this with h | h
        · exact Or.inl (Or.inl (Or.inl h))
        · exact Or.inr h
      · exact Or.inl (Or.inl (Or.inr h))
      · exact Or.inl (Or.inr h)

/-- **C77, names.** Symbols accepted for kprobes are those matching `^[a-zA-Z_][0-9a-zA-Z_.]*$`, as documented. -/
theorem validSymbol_iff (s : Bytes) : validSymbol s = true ↔ ∃ c cs, s = c :: cs ∧ (((0x61 ≤ c.toNat ∧ c.toNat ≤ 0x7a) ∨ (0x41 ≤ c.toNat ∧ c.toNat ≤ 0x5a)) ∨ c = 0x5f#8) ∧
    ∀ d ∈ cs, Alnum d ∨ d = 0x5f#8 ∨ d = 0x2e#8 := by
  cases s with
  | nil => simp [validSymbol]
  | cons c cs =>
    simp only [validSymbol, Bool.and_eq_true, Bool.or_eq_true, isLetter_iff, decide_eq_true_eq, List.all_eq_true, symbolRest, List.cons.injEq]
    constructor
    · rintro ⟨h1, h2⟩
      refine ⟨c, cs, ⟨rfl, rfl⟩, h1, fun d hd => ?_⟩
      rcases h2 d hd with ((h | h) | h) | h
      · exact Or.inl ((alnum_iff d).mp (by rw [Bool.or_eq_true, isLetter_iff]; exact Or.inl h))
      · exact Or.inr (Or.inl h)
      · exact Or.inl ((alnum_iff d).mp (by rw [Bool.or_eq_true]; exact Or.inr h))
      · exact Or.inr (Or.inr h)
    · rintro ⟨c', cs', ⟨e1, e2⟩, h1, h2⟩
      subst e1; subst e2
      refine ⟨h1, fun d hd => ?_⟩
      rcases h2 d hd with h | h | h
      · have := (alnum_iff d).mpr h
        rw [Bool.or_eq_true, isLetter_iff] at this
        rcases this with h | h
        · exact Or.inl (Or.inl (Or.inl h))
        · exact Or.inl (Or.inr h)
      · exact Or.inl (Or.inl (Or.inr h))
      · exact Or.inr h

/-! ## numbers -/

theorem hexDigit_toNat {d : Nat} (h : d < 16) : (hexDigit d).toNat = if d < 10 then 0x30 + d else 0x61 + (d - 10) := by
  unfold hexDigit
  split
  · rw [BitVec.toNat_ofNat]; omega
  · rw [BitVec.toNat_ofNat]; omega

theorem hexVal_hexDigit {d : Nat} (h : d < 16) : hexVal (hexDigit d) = some d := by
  unfold hexVal
  rw [hexDigit_toNat h]
  by_cases h1 : d < 10
  · simp only [h1, if_true]
    rw [if_pos (by omega)]
    congr 1; omega
  · simp only [h1, if_false]
    rw [if_neg (by omega), if_pos (by omega)]
    congr 1; omega

/-- The fold of `number`. -/
def numFold (base : Nat) (ds : Bytes) (acc : Option Nat) : Option Nat := ds.foldl (fun acc c => match acc, hexVal c with
    | some n, some d => if d < base then some (n * base + d) else none
    | _, _ => none) acc

theorem numFold_append (base : Nat) (a b : Bytes) (acc : Option Nat) : numFold base (a ++ b) acc = numFold base b (numFold base a acc) := by
  unfold numFold; rw [List.foldl_append]

theorem numFold_digit (base n d : Nat) (hd : d < base) (hb : base ≤ 16) : numFold base [hexDigit d] (some n) = some (n * base + d) := by
  unfold numFold
  simp only [List.foldl_cons, List.foldl_nil, hexVal_hexDigit (show d < 16 by omega), if_pos hd]

theorem hexDigits_number : ∀ (fuel n : Nat), n < 16 ^ fuel → hexDigits fuel n ≠ [] ∨ fuel = 0 := by
  intro fuel n h
  cases fuel with
  | zero => exact Or.inr rfl
  | succ fuel => left; rw [hexDigits]; split <;> simp

theorem hexDigits_fold : ∀ (fuel n : Nat), n < 16 ^ fuel → numFold 16 (hexDigits fuel n) (some 0) = some n := by
  intro fuel
  induction fuel with
  | zero => intro n h; have : n = 0 := by simpa using h
            rw [this]; rfl
  | succ fuel ih =>
    intro n h
    rw [hexDigits]
    split
    · rename_i h1
      rw [numFold_digit 16 0 n h1 (by omega)]; congr 1; omega
    · rw [numFold_append, ih (n / 16) (by rw [Nat.pow_succ] at h; omega), numFold_digit _ _ _ (by omega) (by omega)]
      congr 1; omega

theorem decDigits_fold : ∀ (fuel n : Nat), n < 10 ^ fuel → numFold 10 (decDigits fuel n) (some 0) = some n := by
  intro fuel
  induction fuel with
  | zero => intro n h; have : n = 0 := by simpa using h
            rw [this]; rfl
  | succ fuel ih =>
    intro n h
    rw [decDigits]
    split
    · rename_i h1
      rw [numFold_digit 10 0 n h1 (by omega)]; congr 1; omega
    · rw [numFold_append, ih (n / 10) (by rw [Nat.pow_succ] at h; omega), numFold_digit _ _ _ (by omega) (by omega)]
      congr 1; omega

theorem number_eq (base : Nat) {ds : Bytes} (h : ds ≠ []) : number base ds = numFold base ds (some 0) := by
  unfold number; rw [if_neg h]; rfl

theorem parse_hex {n : Nat} (h : n < 2 ^ 64) : parseNumber (hex n) = some n := by
  show number 16 (hexDigits 16 n) = some n
  have hne : hexDigits 16 n ≠ [] := by
    rcases hexDigits_number 16 n (by omega) with h | h
    · exact h
    · omega
  rw [number_eq 16 hne, hexDigits_fold 16 n (by omega)]

/-- The first digit of a positive number is not 0. -/
theorem decDigits_head : ∀ (fuel n : Nat), 0 < n → n < 10 ^ fuel → ∃ d rest, decDigits fuel n = hexDigit d :: rest ∧ 0 < d ∧ d < 10 := by
  intro fuel
  induction fuel with
  | zero => intro n h1 h2; simp at h2; omega
  | succ fuel ih =>
    intro n h1 h2
    rw [decDigits]
    split
    · exact ⟨n, [], rfl, h1, by assumption⟩
    · obtain ⟨d, rest, e, h3⟩ := ih (n / 10) (by omega) (by rw [Nat.pow_succ] at h2; omega)
      exact ⟨d, rest ++ [hexDigit (n % 10)], by rw [e]; rfl, h3⟩

theorem parse_dec {n : Nat} (h1 : 0 < n) (h2 : n < 2 ^ 63) : parseNumber (dec n) = some n ∧ dec n ≠ [] := by
  unfold dec
  have hlt : n < 10 ^ 20 := by
    have : (2 : Nat) ^ 63 < 10 ^ 20 := by decide
    omega
  obtain ⟨d, rest, e, h3, h4⟩ := decDigits_head 20 n h1 hlt
  have hf := decDigits_fold 20 n hlt
  rw [e] at hf ⊢
  refine ⟨?_, by simp⟩
  have hd := hexDigit_toNat (show d < 16 by omega)
  rw [if_pos h4] at hd
  have : parseNumber (hexDigit d :: rest) = number 10 (hexDigit d :: rest) := by
    unfold parseNumber
    split
    · rename_i heq
      injection heq with e1 _
      rw [e1] at hd
      simp at hd; omega
    · rename_i heq
      injection heq with e1 _
      rw [e1] at hd
      simp at hd; omega
    · rfl
  rw [this, number_eq 10 (by simp), hf]

/-! ## characters -/

/-- A string none of whose characters is `x`, because they satisfy a test that `x` fails. -/
theorem not_mem_of {f : Byte → Bool} {s : Bytes} (h : ∀ c ∈ s, f c = true) {x : Byte} (hx : f x = false) : x ∉ s := by
  intro hm
  rw [h x hm] at hx
  cases hx

/-- Letters, digits, `_`, `.` and `-`. -/
def plain (c : Byte) : Bool := isLetter c || isDigit c || c = 0x5f#8 || c = 0x2e#8 || c = 0x2d#8
/-- Letters, digits and `_`. -/
def word (c : Byte) : Bool := isLetter c || isDigit c || c = 0x5f#8
/-- Letters, digits, `_` and `-`. -/
def wordDash (c : Byte) : Bool := word c || c = 0x2d#8
/-- Letters, digits, `_` and `.`. -/
def wordDot (c : Byte) : Bool := word c || c = 0x2e#8

theorem hexDigit_word {d : Nat} (h : d < 16) : word (hexDigit d) = true := by
  have hd := hexDigit_toNat h
  unfold word
  rw [Bool.or_eq_true]
  left
  rw [alnum_iff]
  unfold Alnum
  rw [hd]
  split <;> omega

theorem hexDigits_word : ∀ (fuel n : Nat), ∀ c ∈ hexDigits fuel n, word c = true := by
  intro fuel
  induction fuel with
  | zero => intro n c h; cases h
  | succ fuel ih =>
    intro n c h
    rw [hexDigits] at h
    split at h
    · simp only [List.mem_singleton] at h; rw [h]; exact hexDigit_word (by assumption)
    · rcases List.mem_append.mp h with h | h
      · exact ih _ c h
      · simp only [List.mem_singleton] at h; rw [h]; exact hexDigit_word (by omega)

theorem decDigits_word : ∀ (fuel n : Nat), ∀ c ∈ decDigits fuel n, word c = true := by
  intro fuel
  induction fuel with
  | zero => intro n c h; cases h
  | succ fuel ih =>
    intro n c h
    rw [decDigits] at h
    split at h
    · simp only [List.mem_singleton] at h; rw [h]; exact hexDigit_word (by omega)
    · rcases List.mem_append.mp h with h | h
      · exact ih _ c h
      · simp only [List.mem_singleton] at h; rw [h]; exact hexDigit_word (by omega)

theorem hex_word (n : Nat) : ∀ c ∈ hex n, word c = true := by
  intro c h
  unfold hex at h
  rcases List.mem_cons.mp h with h | h
  · rw [h]; decide
  · rcases List.mem_cons.mp h with h | h
    · rw [h]; decide
    · exact hexDigits_word _ _ c h

theorem sanitize_word : ∀ (s : Bytes) (b : Bool), ∀ c ∈ sanitize b s, word c = true := by
  intro s
  induction s with
  | nil => intro b c h; cases b <;> cases h
  | cons d s ih =>
    intro b c h
    rw [sanitize] at h
    split at h
    · rename_i hd
      rcases List.mem_cons.mp h with h | h
      · rw [h]; unfold word; rw [hd]; rfl
      · exact ih _ c h
    · split at h
      · exact ih _ c h
      · rcases List.mem_cons.mp h with h | h
        · rw [h]; decide
        · exact ih _ c h

theorem sanitize_ne {s : Bytes} (h : s ≠ []) : sanitizeIdentifier s ≠ [] := by
  cases s with
  | nil => exact absurd rfl h
  | cons c s => unfold sanitizeIdentifier; rw [sanitize]; split <;> simp

theorem validSymbol_dot {s : Bytes} (h : validSymbol s = true) : s ≠ [] ∧ ∀ c ∈ s, wordDot c = true := by
  cases s with
  | nil => cases h
  | cons d s =>
    refine ⟨by simp, ?_⟩
    simp only [validSymbol, Bool.and_eq_true, Bool.or_eq_true, decide_eq_true_eq, List.all_eq_true, symbolRest] at h
    intro c hc
    simp only [wordDot, word, Bool.or_eq_true, decide_eq_true_eq]
    rcases List.mem_cons.mp hc with hc | hc
    · rw [hc]
      rcases h.1 with h | h
      · exact Or.inl (Or.inl (Or.inl h))
      · exact Or.inl (Or.inr h)
    · rcases h.2 c hc with ((h | h) | h) | h
      · exact Or.inl (Or.inl (Or.inl h))
      · exact Or.inl (Or.inr h)
      · exact Or.inl (Or.inl (Or.inr h))
      · exact Or.inr h

/-- Groups consist of letters, digits, `_` and `-`. -/
theorem randomGroup_chars {pre random g : Bytes} (h : randomGroup pre random = some g) : g ≠ [] ∧ ∀ c ∈ g, wordDash c = true := by
  unfold randomGroup at h
  split at h
  · cases h
  · rename_i hv
    simp only at h
    split at h
    · cases h
    · cases h
      refine ⟨by simp, ?_⟩
      intro c hc
      simp only [List.mem_append, List.mem_singleton] at hc
      rcases hc with (hc | hc) | hc
      · have hv : validIdentifier pre = true := by simpa using hv
        cases pre with
        | nil => cases hc
        | cons d s =>
          simp only [validIdentifier, Bool.and_eq_true, Bool.or_eq_true, decide_eq_true_eq, List.all_eq_true, identRest] at hv
          simp only [wordDash, word, Bool.or_eq_true, decide_eq_true_eq]
          rcases List.mem_cons.mp hc with hc | hc
          · rw [hc]
            rcases hv.1 with h | h
            · exact Or.inl (Or.inl (Or.inl h))
            · exact Or.inl (Or.inr h)
          · rcases hv.2 c hc with ((h | h) | h) | h
            · exact Or.inl (Or.inl (Or.inl h))
            · exact Or.inl (Or.inr h)
            · exact Or.inr h
            · exact Or.inl (Or.inl (Or.inr h))
      · rw [hc]; decide
      · unfold hexBytes at hc
        obtain ⟨x, _, hx⟩ := List.mem_flatMap.mp hc
        have := x.isLt
        simp only [List.mem_cons, List.not_mem_nil, or_false] at hx
        unfold wordDash
        rw [Bool.or_eq_true]
        left
        rcases hx with hx | hx
        · rw [hx]; exact hexDigit_word (by omega)
        · rw [hx]; exact hexDigit_word (by omega)

/-! ## parsing -/

theorem splitBy_none {p : Byte → Bool} {a : Bytes} (h : ∀ c ∈ a, p c = false) : splitBy p a = [a] := by
  induction a with
  | nil => rfl
  | cons c a ih => simp only [splitBy, h c List.mem_cons_self, ih (fun d hd => h d (List.mem_cons_of_mem _ hd)), Bool.false_eq_true, if_false]

theorem splitBy_at {p : Byte → Bool} {a b : Bytes} {x : Byte} (h : ∀ c ∈ a, p c = false) (hx : p x = true) : splitBy p (a ++ x :: b) = a :: splitBy p b := by
  induction a with
  | nil => simp only [List.nil_append, splitBy, hx, if_true]
  | cons c a ih =>
    simp only [List.cons_append, splitBy, h c List.mem_cons_self, ih (fun d hd => h d (List.mem_cons_of_mem _ hd)), Bool.false_eq_true, if_false]

theorem takeWhile_all {p : Byte → Bool} {a : Bytes} (h : ∀ c ∈ a, p c = true) : a.takeWhile p = a := by
  induction a with
  | nil => rfl
  | cons c a ih => rw [List.takeWhile_cons, if_pos (h c List.mem_cons_self), ih (fun d hd => h d (List.mem_cons_of_mem _ hd))]

theorem span_at {p : Byte → Bool} {a b : Bytes} {x : Byte} (h : ∀ c ∈ a, p c = true) (hx : p x = false) : span p (a ++ x :: b) = (a, x :: b) := by
  unfold span
  congr 1
  · rw [List.takeWhile_append_of_pos h, List.takeWhile_cons, hx]; simp
  · rw [List.dropWhile_append_of_pos h, List.dropWhile_cons, hx]; simp

theorem span_none {p : Byte → Bool} {a : Bytes} (h : ∀ c ∈ a, p c = true) : span p a = (a, []) := by
  have hd : a.dropWhile p = [] := by
    induction a with
    | nil => rfl
    | cons c a ih => rw [List.dropWhile_cons, if_pos (h c List.mem_cons_self), ih (fun d hd => h d (List.mem_cons_of_mem _ hd))]
  rw [span, takeWhile_all h, hd]

/-- Characters that end neither a line, a word, nor start a comment. -/
def Quiet (s : Bytes) : Prop := ∀ c ∈ s, isSpace c = false ∧ c ≠ 0x23#8

theorem quiet_of {f : Byte → Bool} {s : Bytes} (h : ∀ c ∈ s, f c = true) (hf : ∀ x ∈ [0x20#8, 0x23#8, 0x09#8, 0x0a#8, 0x0b#8, 0x0c#8, 0x0d#8], f x = false) : Quiet s := by
  intro c hc
  have hne : ∀ x ∈ [0x20#8, 0x23#8, 0x09#8, 0x0a#8, 0x0b#8, 0x0c#8, 0x0d#8], c ≠ x := by
    intro x hx e
    have := hf x hx
    rw [← e, h c hc] at this
    cases this
  refine ⟨?_, hne _ (by simp)⟩
  have h1 := hne 0x20#8 (by simp)
  have h2 := hne 0x09#8 (by simp)
  have h3 := hne 0x0a#8 (by simp)
  have h4 := hne 0x0b#8 (by simp)
  have h5 := hne 0x0c#8 (by simp)
  have h6 := hne 0x0d#8 (by simp)
  unfold isSpace
  rw [Bool.or_eq_false_iff]
  refine ⟨by simpa using h1, ?_⟩
  rw [Bool.and_eq_false_iff]
  simp only [decide_eq_false_iff_not, BitVec.le_def]
  have e : ∀ k, k < 256 → c ≠ BitVec.ofNat 8 k → c.toNat ≠ k := by
    intro k hk hc he
    apply hc
    apply BitVec.eq_of_toNat_eq
    rw [he, BitVec.toNat_ofNat]; omega
  have e2 := e 9 (by omega) h2
  have e3 := e 10 (by omega) h3
  have e4 := e 11 (by omega) h4
  have e5 := e 12 (by omega) h5
  have e6 := e 13 (by omega) h6
  simp only [BitVec.toNat_ofNat]
  omega

theorem quiet_append {a b : Bytes} (ha : Quiet a) (hb : Quiet b) : Quiet (a ++ b) := by
  intro c hc
  rcases List.mem_append.mp hc with h | h
  · exact ha c h
  · exact hb c h

theorem quiet_singleton {x : Byte} (h : isSpace x = false ∧ x ≠ 0x23#8) : Quiet [x] := by
  intro c hc
  simp only [List.mem_singleton] at hc
  rw [hc]; exact h

/-- A line of two words. -/
theorem words_two {a b : Bytes} (ha : Quiet a) (hb : Quiet b) (hna : a ≠ []) (hnb : b ≠ []) : words (a ++ 0x20#8 :: b) = [a, b] := by
  unfold words
  rw [takeWhile_all, splitBy_at (fun c hc => (ha c hc).1) (by decide), splitBy_none (fun c hc => (hb c hc).1)]
  · simp [hna, hnb]
  · intro c hc
    rcases List.mem_append.mp hc with h | h
    · simpa using (ha c h).2
    · rcases List.mem_cons.mp h with h | h
      · rw [h]; decide
      · simpa using (hb c h).2

theorem line_one {w : Bytes} (h : 0x0a#8 ∉ w) (u : Bool) : meaning u w = [parseLine u w] := by
  unfold meaning
  rw [splitBy_none]
  · rfl
  · intro c hc
    have : c ≠ 0x0a#8 := fun e => h (e ▸ hc)
    simpa using this

theorem quiet_newline {s : Bytes} (h : Quiet s) : 0x0a#8 ∉ s := by
  intro hm
  have := (h _ hm).1
  revert this; decide

theorem groupEvent_at {g e : Bytes} (hg : ∀ c ∈ g, wordDash c = true) (hgn : g ≠ []) (he : e ≠ []) : groupEvent (g ++ 0x2f#8 :: e) = some (g, e) := by
  unfold groupEvent
  rw [span_at]
  · simp [hgn, he]
  · intro c hc
    have h1 := not_mem_of hg (x := 0x2f#8) (by decide)
    have h2 := not_mem_of hg (x := 0x2e#8) (by decide)
    have e1 : c ≠ 0x2f#8 := fun e => h1 (e ▸ hc)
    have e2 : c ≠ 0x2e#8 := fun e => h2 (e ▸ hc)
    simp [e1, e2]
  · decide

theorem head_at {x : Byte} {num g e : Bytes} {n : Nat} (hnum : ∀ c ∈ num, word c = true) (hn : (if num = [] then some 0 else parseNumber num) = some n) (hg : ∀ c ∈ g, wordDash c = true)
    (hgn : g ≠ []) (he : e ≠ []) : head (x :: num ++ 0x3a#8 :: (g ++ 0x2f#8 :: e)) = some (x, n, g, e) := by
  unfold head
  simp only [List.cons_append]
  rw [span_at]
  · simp only [hn, groupEvent_at hg hgn he]
  · intro c hc
    have h1 := not_mem_of hnum (x := 0x3a#8) (by decide)
    have e1 : c ≠ 0x3a#8 := fun e => h1 (e ▸ hc)
    simp [e1]
  · decide

/-- The prefix of a probe. -/
theorem probePrefix_spec (ret : Bool) (m : Int) (hm : 0 ≤ m) (hm2 : m < 2 ^ 63) (hr : ret = false → m = 0) :
    ∃ num, probePrefix ret m = (if ret then 0x72#8 else 0x70#8) :: num ∧ (∀ c ∈ num, word c = true) ∧ (if num = [] then some 0 else parseNumber num) = some m.toNat := by
  unfold probePrefix
  cases ret with
  | false => exact ⟨[], rfl, (by intro c h; cases h), by rw [hr rfl]; rfl⟩
  | true =>
    simp only [if_true]
    split
    · rename_i h
      obtain ⟨h1, h2⟩ := parse_dec (n := m.toNat) (by omega) (by omega)
      exact ⟨dec m.toNat, rfl, decDigits_word 20 _, by rw [if_neg h2]; exact h1⟩
    · refine ⟨[], rfl, (by intro c h; cases h), ?_⟩
      simp only [if_true]; congr 1; omega

theorem kernelPlace_token (a : Args) (hs : ∀ c ∈ a.symbol, wordDot c = true) (ho : a.offset < 2 ^ 64) : kernelPlace (kprobeToken a) = some (.kernel a.symbol a.offset) := by
  have hp : ∀ c ∈ a.symbol, (!(decide (c = 0x2b#8) || decide (c = 0x2d#8))) = true := by
    intro c hc
    have h1 := not_mem_of hs (x := 0x2b#8) (by decide)
    have h2 := not_mem_of hs (x := 0x2d#8) (by decide)
    have e1 : c ≠ 0x2b#8 := fun e => h1 (e ▸ hc)
    have e2 : c ≠ 0x2d#8 := fun e => h2 (e ▸ hc)
    simp [e1, e2]
  unfold kprobeToken kernelPlace
  by_cases h : a.offset ≠ 0
  · rw [if_pos h, List.append_assoc, List.singleton_append, span_at hp (by decide)]
    simp [parse_hex ho]
  · rw [if_neg h, span_none hp]
    have : a.offset = 0 := by omega
    rw [this]

theorem userPlace_token (a : Args) (ho : a.offset < 2 ^ 64) (hr : a.refCtrOffset < 2 ^ 64) : userPlace (uprobeToken a) = some (.user a.path a.offset a.refCtrOffset) := by
  have hne : ∀ (s : Bytes) (x : Byte), (∀ c ∈ s, word c = true) → word x = false → ∀ c ∈ s, c ≠ x := by
    intro s x h hx c hc e
    exact not_mem_of h hx (e ▸ hc)
  have hhex : ∀ n, ∀ x, word x = false → ∀ c ∈ hex n, decide (c ≠ x) = true := by
    intro n x hx c hc
    simpa using hne _ x (hex_word n) hx c hc
  unfold uprobeToken userPlace
  simp only
  by_cases h : a.refCtrOffset ≠ 0
  · rw [if_pos h]
    -- with a reference counter
    have e1 : (a.path ++ [0x3a#8] ++ hex a.offset ++ [0x28#8] ++ hex a.refCtrOffset ++ [0x29#8]).reverse =
        ((hex a.offset ++ 0x28#8 :: (hex a.refCtrOffset ++ [0x29#8])).reverse) ++ 0x3a#8 :: a.path.reverse := by simp
    rw [e1, span_at]
    · simp only [List.reverse_reverse]
      rw [span_at (hhex a.offset 0x28#8 (by decide)) (by decide)]
      simp only
      rw [span_at (hhex a.refCtrOffset 0x29#8 (by decide)) (by decide)]
      simp only [parse_hex ho, parse_hex hr]
    · intro c hc
      rw [List.mem_reverse] at hc
      rcases List.mem_append.mp hc with h | h
      · exact hhex _ _ (by decide) c h
      · rcases List.mem_cons.mp h with h | h
        · rw [h]; decide
        · rcases List.mem_append.mp h with h | h
          · exact hhex _ _ (by decide) c h
          · simp only [List.mem_singleton] at h; rw [h]; decide
    · decide
  · rw [if_neg h]
    have e1 : (a.path ++ [0x3a#8] ++ hex a.offset).reverse = (hex a.offset).reverse ++ 0x3a#8 :: a.path.reverse := by simp
    rw [e1, span_at]
    · simp only [List.reverse_reverse]
      rw [span_none (hhex a.offset 0x28#8 (by decide))]
      have : a.refCtrOffset = 0 := by omega
      simp [parse_hex ho, this]
    · intro c hc
      rw [List.mem_reverse] at hc
      exact hhex _ _ (by decide) c hc
    · decide

/-- Reading a command as written. -/
theorem parse_command (u ret : Bool) (m : Int) (hm : 0 ≤ m) (hm2 : m < 2 ^ 63) (hr : ret = false → m = 0) (g e tok : Bytes) (place : Place) (hg : ∀ c ∈ g, wordDash c = true) (hgn : g ≠ [])
    (he : ∀ c ∈ e, word c = true) (hen : e ≠ []) (ht : Quiet tok) (htn : tok ≠ []) (hp : (if u then userPlace tok else kernelPlace tok) = some place) :
    meaning u (probePrefix ret m ++ [0x3a#8] ++ g ++ [0x2f#8] ++ e ++ [0x20#8] ++ tok) = [some (.set ret m.toNat g e place)] := by
  obtain ⟨num, h1, h2, h3⟩ := probePrefix_spec ret m hm hm2 hr
  have hassoc : probePrefix ret m ++ [0x3a#8] ++ g ++ [0x2f#8] ++ e ++ [0x20#8] ++ tok = ((if ret then 0x72#8 else 0x70#8) :: num ++ 0x3a#8 :: (g ++ 0x2f#8 :: e)) ++ 0x20#8 :: tok := by
    rw [h1]; simp
  have hq : Quiet ((if ret then 0x72#8 else 0x70#8) :: num ++ 0x3a#8 :: (g ++ 0x2f#8 :: e)) := by
    have q1 : Quiet [if ret then 0x72#8 else 0x70#8] := by cases ret <;> exact quiet_singleton (by decide)
    have q2 : Quiet num := quiet_of h2 (by decide)
    have q3 : Quiet [0x3a#8] := quiet_singleton (by decide)
    have q4 : Quiet g := quiet_of hg (by decide)
    have q5 : Quiet [0x2f#8] := quiet_singleton (by decide)
    have q6 : Quiet e := quiet_of he (by decide)
    have := quiet_append (quiet_append q1 q2) (quiet_append q3 (quiet_append q4 (quiet_append q5 q6)))
    simpa using this
  rw [hassoc, line_one]
  · unfold parseLine
    rw [words_two hq ht (by simp) htn]
    simp only [head_at h2 h3 hg hgn hen, hp]
    cases ret with
    | false => rw [hr rfl]; rfl
    | true => rfl
  · intro hmem
    rcases List.mem_append.mp hmem with h | h
    · exact quiet_newline hq h
    · rcases List.mem_cons.mp h with h | h
      · revert h; decide
      · exact quiet_newline ht h

/-- **C77, kprobes.** What is written for a kprobe is one command, asking the kernel for the probe that was asked for: entry or return, the number of instances, the group, an event named after the symbol, and the symbol
with its offset. -/
theorem kprobe_command (a : Args) (w : Bytes) (hk : a.uprobe = false) (hs : validSymbol a.symbol = true) (hg : ∃ pre random, randomGroup pre random = some a.group) (ho : a.offset < 2 ^ 64)
    (hm : 0 ≤ a.maxActive ∧ a.maxActive < 2 ^ 63) (h : command a = some w) :
    ∃ ev, Sanitized Alnum a.symbol ev ∧ meaning false w = [some (.set a.ret a.maxActive.toNat a.group ev (.kernel a.symbol a.offset))] := by
  obtain ⟨pre, random, hg⟩ := hg
  obtain ⟨g1, g2⟩ := randomGroup_chars hg
  obtain ⟨s1, s2⟩ := validSymbol_dot hs
  unfold command at h
  simp only [hk, Bool.false_eq_true, if_false] at h
  split at h
  · cases h
  · rename_i hc
    cases h
    refine ⟨sanitizeIdentifier a.symbol, sanitizeIdentifier_spec _, ?_⟩
    refine parse_command false a.ret a.maxActive hm.1 hm.2 ?_ a.group _ _ _ g2 g1 (sanitize_word _ _) (sanitize_ne s1) ?_ ?_ (kernelPlace_token a s2 ho)
    · intro e
      by_cases h0 : a.maxActive = 0
      · exact h0
      · exact absurd ⟨h0, e⟩ hc
    · unfold kprobeToken
      split
      · exact quiet_append (quiet_append (quiet_of s2 (by decide)) (quiet_singleton (by decide))) (quiet_of (hex_word _) (by decide))
      · exact quiet_of s2 (by decide)
    · unfold kprobeToken
      split
      · simp
      · exact s1

/-- **C77, uprobes.** The same for uprobes: the path, the offset in it and the offset of the reference counter.

Partial: the path must not contain white space or `#`, and the symbol must not be empty; see `uprobe_path_space`, `uprobe_path_newline` and `uprobe_no_symbol`. -/
theorem uprobe_command_partial (a : Args) (w : Bytes) (hk : a.uprobe = true) (hs : a.symbol ≠ []) (hg : ∃ pre random, randomGroup pre random = some a.group) (ho : a.offset < 2 ^ 64)
    (hr : a.refCtrOffset < 2 ^ 64) (hp : ∀ c ∈ a.path, isSpace c = false ∧ c ≠ 0x23#8) (h : command a = some w) :
    ∃ ev, Sanitized Alnum a.symbol ev ∧ meaning true w = [some (.set a.ret 0 a.group ev (.user a.path a.offset a.refCtrOffset))] := by
  obtain ⟨pre, random, hg⟩ := hg
  obtain ⟨g1, g2⟩ := randomGroup_chars hg
  unfold command at h
  simp only [hk, if_true] at h
  split at h
  · cases h
  · cases h
    refine ⟨sanitizeIdentifier a.symbol, sanitizeIdentifier_spec _, ?_⟩
    refine parse_command true a.ret 0 (by omega) (by omega) (fun _ => rfl) a.group _ _ _ g2 g1 (sanitize_word _ _) (sanitize_ne hs) ?_ ?_ (userPlace_token a ho hr)
    · have q1 : Quiet (a.path ++ [0x3a#8] ++ hex a.offset) := quiet_append (quiet_append hp (quiet_singleton (by decide))) (quiet_of (hex_word _) (by decide))
      unfold uprobeToken
      simp only
      split
      · exact quiet_append (quiet_append (quiet_append q1 (quiet_singleton (by decide))) (quiet_of (hex_word _) (by decide))) (quiet_singleton (by decide))
      · exact q1
    · unfold uprobeToken
      simp only
      split <;> simp

/-- **C77, removal.** What is written to remove an event asks the kernel to remove that event and nothing else. -/
theorem removal_command (u : Bool) (g symbol : Bytes) (hg : ∃ pre random, randomGroup pre random = some g) (hs : symbol ≠ []) :
    meaning u (removal g (sanitizeIdentifier symbol)) = [some (.remove g (sanitizeIdentifier symbol))] := by
  obtain ⟨pre, random, hg⟩ := hg
  obtain ⟨g1, g2⟩ := randomGroup_chars hg
  have he := sanitize_word symbol false
  have hen := sanitize_ne hs
  have hassoc : removal g (sanitizeIdentifier symbol) = 0x2d#8 :: [] ++ 0x3a#8 :: (g ++ 0x2f#8 :: sanitizeIdentifier symbol) := by unfold removal; simp
  have hq : Quiet (removal g (sanitizeIdentifier symbol)) := by
    unfold removal
    exact quiet_append (quiet_append (quiet_append (quiet_append (quiet_singleton (x := 0x2d#8) (by decide)) (quiet_singleton (x := 0x3a#8) (by decide))) (quiet_of g2 (by decide)))
      (quiet_singleton (by decide))) (quiet_of he (by decide))
  rw [line_one (quiet_newline hq)]
  unfold parseLine words
  rw [takeWhile_all (fun c hc => by simpa using (hq c hc).2), splitBy_none (fun c hc => (hq c hc).1)]
  have hne : removal g (sanitizeIdentifier symbol) ≠ [] := by unfold removal; simp
  simp only [ne_eq, hne, not_false_eq_true, decide_true, List.filter_cons_of_pos, List.filter_nil]
  rw [hassoc, head_at (n := 0) (by intro c h; cases h) rfl g2 g1 hen]
  rfl

/-! ## concrete cases -/

/-- ASCII. -/
def str (s : String) : Bytes := s.toList.map fun c => BitVec.ofNat 8 c.toNat

/-- A kprobe. -/
example : command ⟨false, str "tcp_v4.isra.0", str "ebpf_0102030405060708", [], 0x1f, 0, 12, true⟩ = some (str "r12:ebpf_0102030405060708/tcp_v4_isra_0 tcp_v4.isra.0+0x1f") ∧
    validSymbol (str "tcp_v4.isra.0") = true ∧ randomGroup (str "ebpf") [1#8, 2#8, 3#8, 4#8, 5#8, 6#8, 7#8, 8#8] = some (str "ebpf_0102030405060708") := by decide +kernel

/-- A uprobe. -/
example : command ⟨true, str "main.main", str "ebpf_1", str "/bin/a:b", 0, 0x123, 0, false⟩ = some (str "p:ebpf_1/main_main /bin/a:b:0x0(0x123)") := by decide +kernel

/-- **C77 fails for paths with a space**: the kernel refuses the command. -/
theorem uprobe_path_space : ∃ w, command ⟨true, str "f", str "ebpf_1", str "/a b", 16, 0, 0, false⟩ = some w ∧ meaning true w = [none] := ⟨_, rfl, by decide +kernel⟩

/-- **C77 fails for paths with a newline**: the second line is a command of its own; here it removes an event of somebody else. -/
theorem uprobe_path_newline : ∃ w, command ⟨true, str "f", str "ebpf_1", str "/bin/a:0x1\n-:g/e\n", 16, 0, 0, false⟩ = some w ∧
    meaning true w = [some (.set false 0 (str "ebpf_1") (str "f") (.user (str "/bin/a") 1 0)), some (.remove (str "g") (str "e")), none] := ⟨_, rfl, by decide +kernel⟩

/-- **C77 fails for uprobes without symbol.** Uprobes at an address may have an empty symbol, which is no event name: NewEvent refuses it before anything is written. -/
theorem uprobe_no_symbol : validIdentifier (sanitizeIdentifier []) = false := rfl

/-- A symbol that starts with a digit, or with a run of other characters. -/
example : validIdentifier (sanitizeIdentifier (str "0abc")) = false ∧ sanitizeIdentifier (str "..(*a)") = str "_a_" := by decide +kernel


theorem hexDigit_inj {a b : Nat} (ha : a < 16) (hb : b < 16) (h : hexDigit a = hexDigit b) : a = b := by
  have := hexVal_hexDigit ha
  rw [h, hexVal_hexDigit hb] at this
  exact (Option.some.inj this).symm

theorem hexBytes_inj : ∀ (a b : Bytes), hexBytes a = hexBytes b → a = b
  | [], [], _ => rfl
  | [], _ :: _, h => by simp [hexBytes] at h
  | _ :: _, [], h => by simp [hexBytes] at h
  | c :: cs, d :: ds, h => by
    simp only [hexBytes, List.flatMap_cons, List.cons_append, List.nil_append, List.cons.injEq] at h
    obtain ⟨h1, h2, h3⟩ := h
    have hc := c.isLt
    have hd := d.isLt
    have e1 := hexDigit_inj (by omega) (by omega) h1
    have e2 := hexDigit_inj (by omega) (by omega) h2
    have : c = d := BitVec.eq_of_toNat_eq (by omega)
    rw [this, hexBytes_inj cs ds h3]

/-- **C77, groups.** Groups are valid, short enough for the kernel, start with the given name and differ for different random values. -/
theorem randomGroup_spec {pre random g : Bytes} (h : randomGroup pre random = some g) :
    validIdentifier g = true ∧ g.length ≤ 63 ∧ (∃ suffix, g = pre ++ [0x5f#8] ++ suffix) ∧ ∀ random', randomGroup pre random' = some g → random' = random := by
  have hchars := (randomGroup_chars h).2
  have hform : ∀ r, randomGroup pre r = some g → validIdentifier pre = true ∧ g = pre ++ [0x5f#8] ++ hexBytes r ∧ g.length ≤ 63 := by
    intro r hr
    unfold randomGroup at hr
    split at hr
    · cases hr
    · rename_i hv
      simp only at hr
      split at hr
      · cases hr
      · rename_i hl
        cases hr
        exact ⟨by simpa using hv, rfl, by omega⟩
  obtain ⟨h1, h2, h3⟩ := hform _ h
  refine ⟨?_, h3, ⟨_, h2⟩, fun r' hr' => ?_⟩
  · cases hp : pre with
    | nil => rw [hp] at h1; cases h1
    | cons c cs =>
      rw [hp] at h1 h2
      rw [h2] at hchars ⊢
      simp only [validIdentifier, List.cons_append, Bool.and_eq_true, List.all_eq_true] at h1 hchars ⊢
      refine ⟨h1.1, fun d hd => ?_⟩
      have := hchars d (List.mem_cons_of_mem _ hd)
      simp only [wordDash, word, Bool.or_eq_true, decide_eq_true_eq, identRest] at this ⊢
      rcases this with ((h | h) | h) | h
      · exact .inl (.inl (.inl h))
      · exact .inr h
      · exact .inl (.inl (.inr h))
      · exact .inl (.inr h)
  · obtain ⟨_, h4, _⟩ := hform _ hr'
    rw [h2] at h4
    exact (hexBytes_inj _ _ (List.append_cancel_left h4)).symm

/-- The hypothesis is met. -/
example : randomGroup (str "ebpf") (str "12345678") = some (str "ebpf_3132333435363738") := by decide +kernel

/-- **C77, refusal.** No command is given exactly if there is a maximum of active instances and the probe is not a kretprobe. -/
theorem command_refused (a : Args) : command a = none ↔ a.maxActive ≠ 0 ∧ (a.uprobe = true ∨ a.ret = false) := by
  unfold command
  cases a.uprobe <;> cases a.ret <;> by_cases h : a.maxActive = 0 <;> simp [h]

end Ebpf.Tracefs

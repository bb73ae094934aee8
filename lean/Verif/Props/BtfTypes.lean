import Verif.Model.BtfTypes
import Verif.Spec.BtfTypes
/-! # C29, C30: `Sizeof`, `UnderlyingType`, `As`, essential names -/
namespace Ebpf.Btf
open Ebpf.BtfSpec
variable {R : Type}

theorem sizeofLoop_sound (g : Graph R) : ∀ (k n : Nat) (t : R) (m : Nat), n ≤ maxInt64 → sizeofLoop g k n t = .ok m →
    ∃ d s, HasSize g d t s ∧ d < k ∧ m = n * s ∧ m ≤ maxInt64
  | 0, n, t, m, _, h => by simp [sizeofLoop] at h
  | k + 1, n, t, m, hn, h => by
    have base : ∀ (s : BitVec 32), HasSize g 0 t s.toNat →
        (if n > 0 ∧ s.toNat > maxInt64 / n then (.error .overflow : Except SizeErr Nat) else .ok (n * s.toNat)) = .ok m →
        ∃ d s, HasSize g d t s ∧ d < k + 1 ∧ m = n * s ∧ m ≤ maxInt64 := by
      intro s hs h
      split at h
      · cases h
      · injection h with h
        refine ⟨0, s.toNat, hs, by omega, h.symm, ?_⟩
        rename_i hc
        by_cases h0 : n = 0
        · subst h0; subst h; simp
        · have : s.toNat ≤ maxInt64 / n := by
            apply Nat.le_of_not_lt; intro hlt; exact hc ⟨by omega, hlt⟩
          have h2 := Nat.mul_le_mul_left n this
          have h3 := Nat.mul_div_le maxInt64 n
          omega
    cases hg : g t with
    | array i e nelems =>
      simp only [sizeofLoop, hg] at h
      split at h
      · cases h
      · rename_i hc
        have hb : n * nelems.toNat ≤ maxInt64 := by
          by_cases h0 : n = 0
          · subst h0; simp
          · have : nelems.toNat ≤ maxInt64 / n := by
              apply Nat.le_of_not_lt; intro hlt; exact hc ⟨by omega, hlt⟩
            have h2 := Nat.mul_le_mul_left n this
            have h3 := Nat.mul_div_le maxInt64 n
            omega
        obtain ⟨d, s, hs, hd, hm, hle⟩ := sizeofLoop_sound g k _ e m hb h
        exact ⟨d + 1, _, .array hg hs, by omega, by rw [hm, Nat.mul_assoc], hle⟩
    | void => simp only [sizeofLoop, hg, Node.size?] at h; exact base 0 (.void hg) h
    | int => simp only [sizeofLoop, hg, Node.size?] at h; exact base _ (.int hg) h
    | ptr => simp only [sizeofLoop, hg, Node.size?] at h; exact base 8 (.ptr hg) h
    | struct => simp only [sizeofLoop, hg, Node.size?] at h; exact base _ (.struct hg) h
    | union => simp only [sizeofLoop, hg, Node.size?] at h; exact base _ (.union hg) h
    | enum => simp only [sizeofLoop, hg, Node.size?] at h; exact base _ (.enum hg) h
    | datasec => simp only [sizeofLoop, hg, Node.size?] at h; exact base _ (.datasec hg) h
    | float => simp only [sizeofLoop, hg, Node.size?] at h; exact base _ (.float hg) h
    | typedef nm t' tg =>
      simp only [sizeofLoop, hg, Node.size?, Node.peel?] at h
      obtain ⟨d, s, hs, hd, hm, hle⟩ := sizeofLoop_sound g k _ t' m hn h
      exact ⟨d + 1, _, .typedef hg hs, by omega, hm, hle⟩
    | volatile t' =>
      simp only [sizeofLoop, hg, Node.size?, Node.peel?, Node.qualify?] at h
      obtain ⟨d, s, hs, hd, hm, hle⟩ := sizeofLoop_sound g k _ t' m hn h
      exact ⟨d + 1, _, .volatile hg hs, by omega, hm, hle⟩
    | const t' =>
      simp only [sizeofLoop, hg, Node.size?, Node.peel?, Node.qualify?] at h
      obtain ⟨d, s, hs, hd, hm, hle⟩ := sizeofLoop_sound g k _ t' m hn h
      exact ⟨d + 1, _, .const hg hs, by omega, hm, hle⟩
    | restrict t' =>
      simp only [sizeofLoop, hg, Node.size?, Node.peel?, Node.qualify?] at h
      obtain ⟨d, s, hs, hd, hm, hle⟩ := sizeofLoop_sound g k _ t' m hn h
      exact ⟨d + 1, _, .restrict hg hs, by omega, hm, hle⟩
    | typeTag t' v =>
      simp only [sizeofLoop, hg, Node.size?, Node.peel?, Node.qualify?] at h
      obtain ⟨d, s, hs, hd, hm, hle⟩ := sizeofLoop_sound g k _ t' m hn h
      exact ⟨d + 1, _, .typeTag hg hs, by omega, hm, hle⟩
    | fwd | func | funcProto | var | declTag | cycle =>
      simp [sizeofLoop, hg, Node.size?, Node.peel?, Node.qualify?] at h

theorem sizeofLoop_complete (g : Graph R) (d : Nat) (t : R) (s : Nat) (h : HasSize g d t s) :
    ∀ (k n : Nat), d < k → n * s ≤ maxInt64 → n * s ≠ 0 → sizeofLoop g k n t = .ok (n * s) := by
  have base : ∀ (n : Nat) (s : Nat), n * s ≤ maxInt64 → ¬ (n > 0 ∧ s > maxInt64 / n) := by
    intro n s h ⟨h0, h1⟩
    have := (Nat.le_div_iff_mul_le h0).2 (by rw [Nat.mul_comm]; exact h)
    omega
  induction h with
  | void hg => intro k n hk hle hne; cases k with
    | zero => omega
    | succ k => simp [sizeofLoop, hg, Node.size?]
  | int hg => intro k n hk hle hne; cases k with
    | zero => omega
    | succ k => simp only [sizeofLoop, hg, Node.size?]; rw [if_neg (base _ _ hle)]
  | ptr hg => intro k n hk hle hne; cases k with
    | zero => omega
    | succ k => simp only [sizeofLoop, hg, Node.size?]; rw [if_neg (base n (BitVec.toNat (8 : BitVec 32)) hle)]; rfl
  | struct hg => intro k n hk hle hne; cases k with
    | zero => omega
    | succ k => simp only [sizeofLoop, hg, Node.size?]; rw [if_neg (base _ _ hle)]
  | union hg => intro k n hk hle hne; cases k with
    | zero => omega
    | succ k => simp only [sizeofLoop, hg, Node.size?]; rw [if_neg (base _ _ hle)]
  | enum hg => intro k n hk hle hne; cases k with
    | zero => omega
    | succ k => simp only [sizeofLoop, hg, Node.size?]; rw [if_neg (base _ _ hle)]
  | datasec hg => intro k n hk hle hne; cases k with
    | zero => omega
    | succ k => simp only [sizeofLoop, hg, Node.size?]; rw [if_neg (base _ _ hle)]
  | float hg => intro k n hk hle hne; cases k with
    | zero => omega
    | succ k => simp only [sizeofLoop, hg, Node.size?]; rw [if_neg (base _ _ hle)]
  | @array t i e nel d m hg hs ih =>
    intro k n hk hle hne
    cases k with
    | zero => omega
    | succ k =>
      simp only [sizeofLoop, hg]
      rw [← Nat.mul_assoc] at hle hne ⊢
      have hm : 1 ≤ m := by
        rcases Nat.eq_zero_or_pos m with h | h
        · subst h; simp at hne
        · exact h
      have hle' : n * nel.toNat ≤ maxInt64 := Nat.le_trans (Nat.le_mul_of_pos_right _ hm) hle
      rw [if_neg (base _ _ hle')]
      exact ih k _ (by omega) hle hne
  | typedef hg hs ih => intro k n hk hle hne; cases k with
    | zero => omega
    | succ k => simp only [sizeofLoop, hg, Node.size?, Node.peel?]; exact ih k n (by omega) hle hne
  | volatile hg hs ih => intro k n hk hle hne; cases k with
    | zero => omega
    | succ k => simp only [sizeofLoop, hg, Node.size?, Node.peel?, Node.qualify?]; exact ih k n (by omega) hle hne
  | const hg hs ih => intro k n hk hle hne; cases k with
    | zero => omega
    | succ k => simp only [sizeofLoop, hg, Node.size?, Node.peel?, Node.qualify?]; exact ih k n (by omega) hle hne
  | restrict hg hs ih => intro k n hk hle hne; cases k with
    | zero => omega
    | succ k => simp only [sizeofLoop, hg, Node.size?, Node.peel?, Node.qualify?]; exact ih k n (by omega) hle hne
  | typeTag hg hs ih => intro k n hk hle hne; cases k with
    | zero => omega
    | succ k => simp only [sizeofLoop, hg, Node.size?, Node.peel?, Node.qualify?]; exact ih k n (by omega) hle hne

/-- C29: whatever `Sizeof` returns is the exact size over unbounded integers and fits an `int`. -/
theorem sizeof_exact (g : Graph R) (t : R) (m : Nat) (h : sizeof g t = .ok m) : (∃ d, HasSize g d t m) ∧ m < 2 ^ 63 := by
  obtain ⟨d, s, hs, _, hm, hle⟩ := sizeofLoop_sound g _ _ t m (by decide) h
  rw [Nat.one_mul] at hm; subst hm
  exact ⟨⟨d, hs⟩, by simp only [maxInt64] at hle; omega⟩

/-- C29: a non-zero size that fits is found, when there are fewer than 32 wrappers around the base type. -/
theorem sizeof_complete (g : Graph R) (t : R) (d m : Nat) (h : HasSize g d t m) (hd : d < 32) (h0 : m ≠ 0) (hm : m < 2 ^ 63) :
    sizeof g t = .ok m := by
  have := sizeofLoop_complete g d t m h maxResolveDepth 1 hd (by simp only [maxInt64]; omega) (by omega)
  simpa [sizeof] using this

/-- C29: the size of a type is unique, so `Sizeof` has no other answer to give. -/
theorem hasSize_unique (g : Graph R) {d d' : Nat} {t : R} {m m' : Nat} (h : HasSize g d t m) (h' : HasSize g d' t m') : d = d' ∧ m = m' := by
  induction h generalizing d' m' with
  | void hg => cases h' <;> simp_all
  | int hg => cases h' <;> simp_all
  | ptr hg => cases h' <;> simp_all
  | struct hg => cases h' <;> simp_all
  | union hg => cases h' <;> simp_all
  | enum hg => cases h' <;> simp_all
  | datasec hg => cases h' <;> simp_all
  | float hg => cases h' <;> simp_all
  | array hg hs ih =>
    cases h' with
    | array hg' hs' =>
      rw [hg] at hg'; injection hg' with _ h2 h3; subst h2; subst h3
      obtain ⟨rfl, rfl⟩ := ih hs'; exact ⟨rfl, rfl⟩
    | _ => simp_all
  | typedef hg hs ih =>
    cases h' with
    | typedef hg' hs' =>
      rw [hg] at hg'; injection hg' with _ h2 h3; subst h2
      obtain ⟨rfl, rfl⟩ := ih hs'; exact ⟨rfl, rfl⟩
    | _ => simp_all
  | volatile hg hs ih =>
    cases h' with
    | volatile hg' hs' =>
      rw [hg] at hg'; injection hg' with h2; subst h2
      obtain ⟨rfl, rfl⟩ := ih hs'; exact ⟨rfl, rfl⟩
    | _ => simp_all
  | const hg hs ih =>
    cases h' with
    | const hg' hs' =>
      rw [hg] at hg'; injection hg' with h2; subst h2
      obtain ⟨rfl, rfl⟩ := ih hs'; exact ⟨rfl, rfl⟩
    | _ => simp_all
  | restrict hg hs ih =>
    cases h' with
    | restrict hg' hs' =>
      rw [hg] at hg'; injection hg' with h2; subst h2
      obtain ⟨rfl, rfl⟩ := ih hs'; exact ⟨rfl, rfl⟩
    | _ => simp_all
  | typeTag hg hs ih =>
    cases h' with
    | typeTag hg' hs' =>
      rw [hg] at hg'; injection hg' with h2; subst h2
      obtain ⟨rfl, rfl⟩ := ih hs'; exact ⟨rfl, rfl⟩
    | _ => simp_all

/-- C29: a type which contains itself by value has no size, and `Sizeof` reports an error. -/
theorem sizeof_cyclic (g : Graph R) (t : R) (h : ∀ d m, ¬ HasSize g d t m) : ∃ e, sizeof g t = .error e := by
  cases hs : sizeof g t with
  | error e => exact ⟨e, rfl⟩
  | ok m => obtain ⟨⟨d, hd⟩, _⟩ := sizeof_exact g t m hs; exact absurd hd (h d m)

theorem peel?_iff (g : Graph R) (t t' : R) : (g t).peel? = some t' ↔ Peel g t t' := by
  constructor
  · intro h
    cases hg : g t with
    | typedef n x ts => rw [hg] at h; injection h with h; subst h; exact .typedef hg
    | volatile x => rw [hg] at h; injection h with h; subst h; exact .qual (.volatile hg)
    | const x => rw [hg] at h; injection h with h; subst h; exact .qual (.const hg)
    | restrict x => rw [hg] at h; injection h with h; subst h; exact .qual (.restrict hg)
    | typeTag x v => rw [hg] at h; injection h with h; subst h; exact .qual (.typeTag hg)
    | _ => rw [hg] at h; simp [Node.peel?, Node.qualify?] at h
  · intro h
    cases h with
    | qual h => cases h <;> rename_i hg <;> rw [hg] <;> rfl
    | typedef hg => rw [hg]; rfl

theorem qualify?_iff (g : Graph R) (t t' : R) : (g t).qualify? = some t' ↔ Qual g t t' := by
  constructor
  · intro h
    cases hg : g t with
    | volatile x => rw [hg] at h; injection h with h; subst h; exact .volatile hg
    | const x => rw [hg] at h; injection h with h; subst h; exact .const hg
    | restrict x => rw [hg] at h; injection h with h; subst h; exact .restrict hg
    | typeTag x v => rw [hg] at h; injection h with h; subst h; exact .typeTag hg
    | _ => rw [hg] at h; simp [Node.qualify?] at h
  · intro h; cases h <;> rename_i hg <;> rw [hg] <;> rfl

theorem underlyingLoop_iff (g : Graph R) : ∀ (k : Nat) (t u : R),
    underlyingLoop g k t = some u ↔ ∃ d, d < k ∧ Steps (Peel g) d t u ∧ ∀ v, ¬ Peel g u v
  | 0, t, u => by simp [underlyingLoop]
  | k + 1, t, u => by
    unfold underlyingLoop
    cases h : (g t).peel? with
    | none =>
      have hn : ∀ v, ¬ Peel g t v := by intro v hv; rw [← peel?_iff, h] at hv; cases hv
      simp only [Option.some.injEq]
      constructor
      · rintro rfl; exact ⟨0, by omega, .refl _, hn⟩
      · rintro ⟨d, _, hs, _⟩
        cases hs with
        | refl => rfl
        | step h1 _ => exact absurd h1 (hn _)
    | some t' =>
      have hp := (peel?_iff g t t').1 h
      rw [underlyingLoop_iff g k t' u]
      constructor
      · rintro ⟨d, hd, hs, hn⟩; exact ⟨d + 1, by omega, .step hp hs, hn⟩
      · rintro ⟨d, hd, hs, hn⟩
        cases hs with
        | refl => exact absurd hp (hn _)
        | @step d' _ b _ h1 h2 =>
          have : t' = b := by
            have := (peel?_iff g t b).2 h1; rw [h] at this; injection this
          subst this
          exact ⟨d', by omega, h2, hn⟩

/-- C29: `UnderlyingType` returns the first type on the chain that is neither a qualifier nor a typedef if it is within 32 steps;
otherwise (in particular on cycles) it reports a `cycle`. -/
theorem underlyingType_exact (g : Graph R) (t u : R) :
    underlyingType g t = some u ↔ ∃ d, d ≤ 32 ∧ Steps (Peel g) d t u ∧ ∀ v, ¬ Peel g u v := by
  rw [underlyingType, underlyingLoop_iff]
  constructor <;> rintro ⟨d, h1, h2⟩ <;> exact ⟨d, by simp only [maxResolveDepth] at *; omega, h2⟩

theorem qualifiedLoop_iff (g : Graph R) : ∀ (k : Nat) (t u : R),
    qualifiedLoop g k t = some u ↔ ∃ d, d < k ∧ Steps (Qual g) d t u ∧ ∀ v, ¬ Qual g u v
  | 0, t, u => by simp [qualifiedLoop]
  | k + 1, t, u => by
    unfold qualifiedLoop
    cases h : (g t).qualify? with
    | none =>
      have hn : ∀ v, ¬ Qual g t v := by intro v hv; rw [← qualify?_iff, h] at hv; cases hv
      simp only [Option.some.injEq]
      constructor
      · rintro rfl; exact ⟨0, by omega, .refl _, hn⟩
      · rintro ⟨d, _, hs, _⟩
        cases hs with
        | refl => rfl
        | step h1 _ => exact absurd h1 (hn _)
    | some t' =>
      have hp := (qualify?_iff g t t').1 h
      rw [qualifiedLoop_iff g k t' u]
      constructor
      · rintro ⟨d, hd, hs, hn⟩; exact ⟨d + 1, by omega, .step hp hs, hn⟩
      · rintro ⟨d, hd, hs, hn⟩
        cases hs with
        | refl => exact absurd hp (hn _)
        | @step d' _ b _ h1 h2 =>
          have : t' = b := by
            have := (qualify?_iff g t b).2 h1; rw [h] at this; injection this
          subst this
          exact ⟨d', by omega, h2, hn⟩

/-- C29: `QualifiedType` likewise, keeping typedefs. -/
theorem qualifiedType_exact (g : Graph R) (t u : R) :
    qualifiedType g t = some u ↔ ∃ d, d ≤ 32 ∧ Steps (Qual g) d t u ∧ ∀ v, ¬ Qual g u v := by
  rw [qualifiedType, qualifiedLoop_iff]
  constructor <;> rintro ⟨d, h1, h2⟩ <;> exact ⟨d, by simp only [maxResolveDepth] at *; omega, h2⟩

theorem asLoop_iff (g : Graph R) (want : Node R → Bool) : ∀ (k : Nat) (t u : R),
    asLoop g want k t = some u ↔
      ∃ d, d < k ∧ Steps (fun a b => Peel g a b ∧ want (g a) = false) d t u ∧ want (g u) = true
  | 0, t, u => by simp [asLoop]
  | k + 1, t, u => by
    unfold asLoop
    by_cases hw : want (g t) = true
    · rw [if_pos hw, Option.some.injEq]
      constructor
      · rintro rfl; exact ⟨0, by omega, .refl _, hw⟩
      · rintro ⟨d, _, hs, _⟩
        cases hs with
        | refl => rfl
        | step h1 _ => rw [h1.2] at hw; cases hw
    · rw [if_neg hw]
      have hw' : want (g t) = false := by simpa using hw
      cases h : (g t).peel? with
      | none =>
        constructor
        · intro h; cases h
        · rintro ⟨d, _, hs, hu⟩
          cases hs with
          | refl => exact absurd hu hw
          | step h1 _ => have := (peel?_iff g t _).2 h1.1; rw [h] at this; cases this
      | some t' =>
        have hp := (peel?_iff g t t').1 h
        show asLoop g want k t' = some u ↔ _
        rw [asLoop_iff g want k t' u]
        constructor
        · rintro ⟨d, hd, hs, hn⟩; exact ⟨d + 1, by omega, .step ⟨hp, hw'⟩ hs, hn⟩
        · rintro ⟨d, hd, hs, hn⟩
          cases hs with
          | refl => exact absurd hn hw
          | @step d' _ b _ h1 h2 =>
            have : t' = b := by
              have := (peel?_iff g t b).2 h1.1; rw [h] at this; injection this
            subst this
            exact ⟨d', by omega, h2, hn⟩

/-- C29: `As[T]` finds the first `T` on the chain of qualifiers and typedefs, within 32 steps, and nothing else. -/
theorem as_exact (g : Graph R) (want : Node R → Bool) (t u : R) :
    asType g want t = some u ↔
      ∃ d, d ≤ 32 ∧ Steps (fun a b => Peel g a b ∧ want (g a) = false) d t u ∧ want (g u) = true := by
  rw [asType, asLoop_iff]
  constructor <;> rintro ⟨d, h1, h2⟩ <;> exact ⟨d, by simp only [maxResolveDepth] at *; omega, h2⟩

/-! ## C30 -/

theorem lastIndex3_some (s : Bytes) (i : Nat) : lastIndex3 s = some i ↔
    (∃ suf, s.drop i = uuu ++ suf) ∧ i ≤ s.length ∧ ∀ j, j ≤ s.length → (∃ suf, s.drop j = uuu ++ suf) → j ≤ i := by
  induction s generalizing i with
  | nil => simp [lastIndex3, uuu]
  | cons b bs ih =>
    unfold lastIndex3
    cases h : lastIndex3 bs with
    | some k =>
      obtain ⟨h1, h2, h3⟩ := (ih k).1 h
      simp only [Option.some.injEq]
      constructor
      · rintro rfl
        refine ⟨by simpa using h1, by simp; omega, ?_⟩
        intro j hj hs
        cases j with
        | zero => omega
        | succ j => have := h3 j (by simpa using hj) (by simpa using hs); omega
      · rintro ⟨g1, g2, g3⟩
        have hk := g3 (k + 1) (by simp; omega) (by simpa using h1)
        cases i with
        | zero => omega
        | succ i => have := h3 i (by simpa using g2) (by simpa using g1); omega
    | none =>
      have hno : ∀ j, j ≤ bs.length → ¬ ∃ suf, bs.drop j = uuu ++ suf := by
        -- otherwise there would be a last one
        intro j hj hs
        have : ∀ n, (∀ j, j ≤ bs.length → (∃ suf, bs.drop j = uuu ++ suf) → j ≤ n) → False := by
          intro n
          induction n with
          | zero =>
            intro hb
            have hj0 : j = 0 := by have := hb j hj hs; omega
            subst hj0
            have := (ih 0).2 ⟨hs, by omega, hb⟩
            rw [h] at this; cases this
          | succ n ihn =>
            intro hb
            by_cases hx : n + 1 ≤ bs.length ∧ ∃ suf, bs.drop (n + 1) = uuu ++ suf
            · have := (ih (n + 1)).2 ⟨hx.2, hx.1, hb⟩
              rw [h] at this; cases this
            · apply ihn
              intro j hj hs
              have := hb j hj hs
              rcases Nat.lt_or_ge j (n + 1) with h1 | h1
              · omega
              · have : j = n + 1 := by omega
                subst this; exact absurd ⟨hj, hs⟩ hx
        exact this bs.length (fun j hj _ => hj)
      show (if uuu.isPrefixOf (b :: bs) then some 0 else none) = some i ↔ _
      have hpre : uuu.isPrefixOf (b :: bs) = true ↔ ∃ suf, b :: bs = uuu ++ suf := by
        rw [List.isPrefixOf_iff_prefix]
        constructor
        · rintro ⟨t, ht⟩; exact ⟨t, ht.symm⟩
        · rintro ⟨t, ht⟩; exact ⟨t, ht.symm⟩
      constructor
      · intro hif
        split at hif
        · rename_i hp
          injection hif with hif; subst hif
          refine ⟨by simpa using hpre.1 hp, by omega, ?_⟩
          intro j hj hs
          cases j with
          | zero => omega
          | succ j => exact absurd (by simpa using hs) (hno j (by simpa using hj))
        · cases hif
      · rintro ⟨g1, g2, g3⟩
        cases i with
        | zero => rw [if_pos (hpre.2 (by simpa using g1))]
        | succ i => exact absurd (by simpa using g1) (hno i (by simpa using g2))

theorem lastIndex3_none (s : Bytes) (h : lastIndex3 s = none) (e suf : Bytes) : s ≠ e ++ uuu ++ suf := by
  intro he
  induction s generalizing e with
  | nil => simp [uuu] at he
  | cons b bs ih =>
    unfold lastIndex3 at h
    cases hl : lastIndex3 bs with
    | some k => rw [hl] at h; cases h
    | none =>
      rw [hl] at h
      cases e with
      | nil =>
        have : uuu.isPrefixOf (b :: bs) = true := by
          rw [List.isPrefixOf_iff_prefix]; exact ⟨suf, by simpa using he.symm⟩
        simp [this] at h
      | cons x e =>
        simp only [List.cons_append, List.cons.injEq] at he
        exact ih hl e he.2

/-- C30: the essential name of a flavoured name is what precedes the last "___"; every other name is its own essential name. -/
theorem essentialName_exact (s : Bytes) :
    (∀ e, Flavoured s e → newEssentialName s = e) ∧ ((∀ e, ¬ Flavoured s e) → newEssentialName s = s) ∧
    (newEssentialName s = [] ↔ s = []) := by
  by_cases h0 : s = []
  · subst h0
    refine ⟨?_, ?_, ?_⟩
    · rintro e ⟨hne, ⟨suf, h⟩, _⟩; simp at h
    · intro _; rfl
    · simp [newEssentialName]
  · have key : ∀ i, lastIndex3 s = some i → 0 < i → Flavoured s (s.take i) := by
      intro i hi hpos
      obtain ⟨⟨suf, h1⟩, h2, h3⟩ := (lastIndex3_some s i).1 hi
      refine ⟨?_, ⟨suf, ?_⟩, ?_⟩
      · intro he
        have := congrArg List.length he
        rw [List.length_take] at this; simp at this
        rcases this with h | h
        · omega
        · exact h0 h
      · rw [List.append_assoc]; conv => lhs; rw [← List.take_append_drop i s, h1]
        rfl
      · intro e' suf' he
        have := h3 e'.length (by rw [he]; simp) ⟨suf', by rw [he, List.append_assoc, List.drop_left]; rfl⟩
        rw [List.length_take]; omega
    cases hl : lastIndex3 s with
    | none =>
      have hE : newEssentialName s = s := by simp [newEssentialName, h0, hl]
      refine ⟨?_, fun _ => hE, by rw [hE]⟩
      rintro e ⟨_, ⟨suf, he⟩, _⟩
      exact absurd he (lastIndex3_none s hl e suf)
    | some i =>
      by_cases hi : 0 < i
      · have hE : newEssentialName s = s.take i := by simp [newEssentialName, h0, hl, hi]
        have hf := key i hl hi
        refine ⟨?_, ?_, ?_⟩
        · rintro e ⟨hne, ⟨suf, he⟩, hmax⟩
          rw [hE]
          have l1 := hmax _ _ hf.2.1.choose_spec
          have l2 := hf.2.2 e suf he
          have hlen : e.length = (s.take i).length := by omega
          have : s.take i = (e ++ ([0x5f, 0x5f, 0x5f] ++ suf)).take i := by rw [← List.append_assoc, ← he]
          rw [this]
          have h2 := ((lastIndex3_some s i).1 hl).2.1
          rw [List.length_take] at hlen
          rw [List.take_append_of_le_length (by omega), List.take_of_length_le (by omega)]
        · intro hno; exact absurd hf (hno _)
        · rw [hE]; exact ⟨fun h => absurd h hf.1, fun h => absurd h h0⟩
      · have hi0 : i = 0 := by omega
        subst hi0
        have hE : newEssentialName s = s := by simp [newEssentialName, h0, hl]
        refine ⟨?_, fun _ => hE, by rw [hE]⟩
        rintro e ⟨hne, ⟨suf, he⟩, _⟩
        have := ((lastIndex3_some s 0).1 hl).2.2 e.length (by rw [he]; simp) ⟨suf, by rw [he, List.append_assoc, List.drop_left]; rfl⟩
        have : e = [] := List.length_eq_zero_iff.1 (by omega)
        exact absurd this hne

/-! ## Non-vacuity -/

/-- Bytes of a literal. -/
def lit (s : String) : Bytes := s.toList.map fun c => BitVec.ofNat 8 c.toNat

/-- `typedef int arr_t[4][3]` and a cyclic typedef. -/
def exSizeGraph : Graph Nat
  | 0 => .int [0x69] 4 1
  | 1 => .array 0 0 3
  | 2 => .array 0 1 4
  | 3 => .typedef [0x61] 2 []
  | 4 => .typedef [0x62] 4 []
  | 5 => .array 0 3 0xffffffff
  | 6 => .array 0 5 0xffffffff
  | _ => .void

example : sizeof exSizeGraph 3 = .ok 48 := by decide
example : sizeof exSizeGraph 4 = .error .depth := by decide
example : sizeof exSizeGraph 5 = .ok 206158430160 := by decide
example : sizeof exSizeGraph 6 = .error .overflow := by decide
example : underlyingType exSizeGraph 3 = some 2 ∧ underlyingType exSizeGraph 4 = none := by decide
example : asType exSizeGraph (fun n => match n with | .array .. => true | _ => false) 3 = some 2 := by decide
example : newEssentialName (lit "task_struct___v2") = lit "task_struct" := by decide
example : newEssentialName (lit "___v2") = lit "___v2" := by decide
example : newEssentialName (lit "a___b___c") = lit "a___b" := by decide

end Ebpf.Btf

import Verif.Spec.GoFormat
import Verif.Props.BtfTypes
/-!
# C68: the Go types generated for C types have their layout
-/
namespace Ebpf.Btf
open Ebpf.BtfSpec
section
variable {R : Type}

/-! ## alignments -/

/-- The alignments there are. -/
def Pow (a : Nat) : Prop := a = 1 ∨ a = 2 ∨ a = 4 ∨ a = 8

theorem pow_pos {a : Nat} (h : Pow a) : 0 < a := by rcases h with h | h | h | h <;> omega

theorem pow_max {a b : Nat} (ha : Pow a) (hb : Pow b) : Pow (max a b) := by
  rcases Nat.le_total a b with h | h
  · rw [Nat.max_eq_right h]; exact hb
  · rw [Nat.max_eq_left h]; exact ha

theorem max_dvd {a b c : Nat} (ha : a ∣ c) (hb : b ∣ c) : max a b ∣ c := by
  rcases Nat.le_total a b with h | h
  · rw [Nat.max_eq_right h]; exact hb
  · rw [Nat.max_eq_left h]; exact ha

theorem roundUp_of_dvd {x a : Nat} (ha : 0 < a) (h : a ∣ x) : roundUp x a = x := by
  obtain ⟨c, rfl⟩ := h
  unfold roundUp
  have : (a * c + a - 1) / a = c := by
    apply Nat.div_eq_of_lt_le
    · rw [Nat.mul_comm]; omega
    · rw [Nat.succ_mul, Nat.mul_comm c a]; omega
  rw [this, Nat.mul_comm]

theorem roundUp_one (x : Nat) : roundUp x 1 = x := roundUp_of_dvd (by omega) (Nat.one_dvd x)

/-! ## lists of fields -/

variable (env : R → Nat × Nat) (w : Nat)

theorem append_nil : ∀ (a : GoFields R), a.append .nil = a
  | .nil => rfl
  | .cons n t r => by unfold GoFields.append; rw [append_nil r]

theorem fieldsEnd_append : ∀ (a b : GoFields R) (off : Nat), fieldsEnd env w off (a.append b) = fieldsEnd env w (fieldsEnd env w off a) b
  | .nil, b, off => by simp only [GoFields.append, fieldsEnd]
  | .cons n t r, b, off => by
    simp only [GoFields.append, fieldsEnd]
    exact fieldsEnd_append r b _

theorem fieldsAlign_pos : ∀ (c : GoFields R), 1 ≤ fieldsAlign env w c
  | .nil => by simp only [fieldsAlign]; omega
  | .cons _ _ r => by
    simp only [fieldsAlign]
    have := fieldsAlign_pos r
    omega

theorem fieldsAlign_append : ∀ (a b : GoFields R), fieldsAlign env w (a.append b) = max (fieldsAlign env w a) (fieldsAlign env w b)
  | .nil, b => by
    simp only [GoFields.append, fieldsAlign]
    have := fieldsAlign_pos env w b
    omega
  | .cons n t r, b => by
    simp only [GoFields.append, fieldsAlign]
    rw [fieldsAlign_append r b]
    omega

theorem lastEmpty_append : ∀ (a b : GoFields R), b ≠ .nil → lastEmpty env w (a.append b) = lastEmpty env w b
  | .nil, b, _ => rfl
  | .cons n t r, b, h => by
    have ih := lastEmpty_append r b h
    have hne : r.append b ≠ .nil := by
      cases r with
      | nil => exact h
      | cons _ _ _ => intro hh; simp [GoFields.append] at hh
    unfold GoFields.append
    cases hr : r.append b with
    | nil => exact absurd hr hne
    | cons n' t' r' =>
      rw [hr] at ih
      rw [show lastEmpty env w (.cons n t (.cons n' t' r')) = lastEmpty env w (.cons n' t' r') from by simp only [lastEmpty]]
      exact ih

theorem fieldAt_left {a b : GoFields R} {off : Nat} {nm : Bytes} {o : Nat} {t : GoTy R} (h : FieldAt env w a off nm o t) :
    FieldAt env w (a.append b) off nm o t := by
  induction h with
  | here => exact .here
  | there _ ih => exact .there ih

theorem fieldAt_right {nm : Bytes} {o : Nat} {t : GoTy R} : ∀ {a b : GoFields R} {off : Nat}, FieldAt env w b (fieldsEnd env w off a) nm o t →
    FieldAt env w (a.append b) off nm o t
  | .nil, b, off, h => by simpa only [GoFields.append, fieldsEnd] using h
  | .cons n t' r, b, off, h => by
    unfold GoFields.append
    apply FieldAt.there
    apply fieldAt_right
    simpa only [fieldsEnd] using h

theorem goPadding_spec (n : BitVec 32) (off : Nat) :
    fieldsEnd env w off (goPadding n : GoFields R) = off + n.toNat ∧ fieldsAlign env w (goPadding n : GoFields R) = 1 ∧
      (n ≠ 0#32 → (goPadding n : GoFields R) ≠ .nil ∧ lastEmpty env w (goPadding n : GoFields R) = false) ∧
      (n = 0#32 → (goPadding n : GoFields R) = .nil) := by
  unfold goPadding
  by_cases h : n = 0#32
  · rw [if_pos h]
    refine ⟨?_, ?_, fun h' => absurd h h', fun _ => rfl⟩
    · simp only [fieldsEnd, h]; rfl
    · simp only [fieldsAlign]
  · rw [if_neg h]
    refine ⟨?_, ?_, ?_, fun h' => absurd h' h⟩
    · simp only [fieldsEnd, goAlign, goSize, roundUp_one]
    · simp only [fieldsAlign, goAlign]; omega
    · intro _
      refine ⟨by simp, ?_⟩
      simp only [lastEmpty, goSize, beq_eq_false_iff_ne]
      intro hz
      exact h (BitVec.eq_of_toNat_eq (by rw [hz]; rfl))

/-! ## what is proved of types and fields -/

variable (g : Graph R) (names : R → Bool)

/-- The Go types that already have a name have the right layout. -/
def EnvOK : Prop := ∀ u, names u = true → TypeSize g u (env u).1 ∧ Pow (env u).2 ∧ ∀ a, AlignedAt g u a → (env u).2 ∣ a

/-- The Go type represents the C type and is aligned wherever the C type is. -/
structure TypeOK (gt : GoTy R) (t : R) : Prop where
  rep : Represents g names env w gt t
  size : TypeSize g t (goSize env w gt)
  pow : Pow (goAlign env w gt)
  align : ∀ a, AlignedAt g t a → goAlign env w gt ∣ a

/-- The fields written for a member. -/
structure FieldOK (fl : GoFields R) (m : Member R) (off s : Nat) : Prop where
  nonempty : fl ≠ .nil
  fin : fieldsEnd env w off fl = off + s
  pow : Pow (fieldsAlign env w fl)
  align : ∀ a, AlignedAt g m.type a → fieldsAlign env w fl ∣ a
  last : s ≠ 0 → lastEmpty env w fl = false
  shows : ∀ fs, (∀ nm o t, FieldAt env w fl off nm o t → FieldAt env w fs 0 nm o t) → Shows g names env w fs m off

variable {env w g names}

theorem typeSize_unique {t : R} {a b : Nat} (ha : TypeSize g t a) (hb : TypeSize g t b) : a = b := by
  obtain ⟨d, ha⟩ := ha
  obtain ⟨d', hb⟩ := hb
  exact (hasSize_unique g ha hb).2

theorem qual_peel {t t' : R} (h : Qual g t t') : Peel g t t' := .qual h

theorem typeSize_peel {t t' : R} {n : Nat} (h : Peel g t t') (hn : TypeSize g t' n) : TypeSize g t n := by
  obtain ⟨d, hd⟩ := hn
  refine ⟨d + 1, ?_⟩
  cases h with
  | qual hq =>
    cases hq with
    | volatile h => exact .volatile h hd
    | const h => exact .const h hd
    | restrict h => exact .restrict h hd
    | typeTag h => exact .typeTag h hd
  | typedef h => exact .typedef h hd

theorem peel_fun {t a b : R} (ha : Peel g t a) (hb : Peel g t b) : a = b := by
  have h1 := (peel?_iff g t a).2 ha
  have h2 := (peel?_iff g t b).2 hb
  rw [h1] at h2
  exact Option.some.inj h2

theorem not_peel {t : R} (h : (g t).peel? = none) {t' : R} : ¬ Peel g t t' := by
  intro hp
  rw [(peel?_iff g t t').2 hp] at h
  cases h

theorem aligned_peel {t t' : R} {a : Nat} (hp : Peel g t t') (h : AlignedAt g t a) : AlignedAt g t' a := by
  have hp' := (peel?_iff g t t').2 hp
  cases h with
  | int h _ => rw [h] at hp'; cases hp'
  | enum h _ => rw [h] at hp'; cases hp'
  | peel h h2 => rw [peel_fun hp h]; exact h2
  | array h _ => rw [h] at hp'; cases hp'
  | struct h _ => rw [h] at hp'; cases hp'
  | union h _ => rw [h] at hp'; cases hp'
  | datasec h _ => rw [h] at hp'; cases hp'

theorem typeOK_peel {gt : GoTy R} {t t' : R} (hp : Peel g t t') (h : TypeOK env w g names gt t') : TypeOK env w g names gt t :=
  ⟨.peel hp h.rep, typeSize_peel hp h.size, h.pow, fun a ha => h.align a (aligned_peel hp ha)⟩

theorem qualifiedLoop_ok {P : R → Prop} (hstep : ∀ t t', Qual g t t' → P t → P t') : ∀ (k : Nat) (t u : R), qualifiedLoop g k t = some u → P t →
    P u ∧ (∀ t', ¬ Qual g u t') ∧ ∀ gt : GoTy R, TypeOK env w g names gt u → TypeOK env w g names gt t
  | 0, t, u, h, _ => by cases h
  | k + 1, t, u, h, hP => by
    unfold qualifiedLoop at h
    cases hq : (g t).qualify? with
    | none =>
      rw [hq] at h
      simp only [Option.some.injEq] at h
      subst h
      refine ⟨hP, ?_, fun gt h => h⟩
      intro t' ht
      rw [(qualify?_iff g t t').2 ht] at hq
      cases hq
    | some t' =>
      rw [hq] at h
      simp only at h
      have hqq := (qualify?_iff g t t').1 hq
      obtain ⟨a, b, c⟩ := qualifiedLoop_ok hstep k t' u h (hstep t t' hqq hP)
      exact ⟨a, b, fun gt hg => typeOK_peel (.qual hqq) (c gt hg)⟩

theorem qual_fun {t a b : R} (ha : Qual g t a) (hb : Qual g t b) : a = b := peel_fun (.qual ha) (.qual hb)

theorem lit_qual {t t' : R} (hq : Qual g t t') (h : NaturalLit g names t) : NaturalLit g names t' := by
  have hp' := (qualify?_iff g t t').2 hq
  cases h with
  | int h _ => rw [h] at hp'; cases hp'
  | enum h => rw [h] at hp'; cases hp'
  | qual h h2 => rw [qual_fun hq h]; exact h2
  | typedef h _ => rw [h] at hp'; cases hp'
  | array h _ => rw [h] at hp'; cases hp'
  | struct h _ _ _ _ => rw [h] at hp'; cases hp'
  | union h _ _ _ _ => rw [h] at hp'; cases hp'
  | datasec h _ _ _ => rw [h] at hp'; cases hp'

theorem layout_qual {t t' : R} (hq : Qual g t t') (h : NaturalLayout g names t) : NaturalLayout g names t' := by
  cases h with
  | named _ h => exact absurd hq (h t')
  | qual h h2 => rw [qual_fun hq h]; exact h2
  | lit h => exact .lit (lit_qual hq h)

/-! ## structs -/

theorem bytesOf_toNat (off : BitVec 32) : (bytesOf off).toNat = off.toNat / 8 := by
  unfold bytesOf
  have := off.isLt
  rw [BitVec.toNat_ofNat]
  omega

/-- The fields of a struct. -/
theorem structFields_ok (field : Member R → Except GoErr (GoFields R)) (size : BitVec 32) : ∀ (ms : List (Member R)) (prev : BitVec 32) (fs : GoFields R),
    structFields g field size prev ms = .ok fs → InOrder g size.toNat prev.toNat ms →
    (∀ m ∈ ms, m.bitfieldSize = 0#32 → ∀ fl, field m = .ok fl → ∀ off s, TypeSize g m.type s → AlignedAt g m.type off → FieldOK env w g names fl m off s) →
    fieldsEnd env w prev.toNat fs = size.toNat ∧ Pow (fieldsAlign env w fs) ∧
      (∀ a, (∀ m ∈ ms, m.bitfieldSize = 0#32 → AlignedAt g m.type a) → fieldsAlign env w fs ∣ a) ∧
      (fs = .nil → prev.toNat = size.toNat) ∧ (fs ≠ .nil → lastEmpty env w fs = false) ∧
      ∀ fs0, (∀ nm o t, FieldAt env w fs prev.toNat nm o t → FieldAt env w fs0 0 nm o t) → ∀ m ∈ ms, m.bitfieldSize = 0#32 →
        Shows g names env w fs0 m (m.offset.toNat / 8)
  | [], prev, fs, h, ho, _ => by
    simp only [structFields, Except.ok.injEq] at h
    have hle : prev.toNat ≤ size.toNat := by cases ho with | nil h => exact h
    have hsub : (size - prev).toNat = size.toNat - prev.toNat := BitVec.toNat_sub_of_le hle
    obtain ⟨p1, p2, p3, p4⟩ := goPadding_spec (R := R) env w (size - prev) prev.toNat
    rw [h] at p1 p2 p3 p4
    refine ⟨by rw [p1, hsub]; omega, by rw [p2]; exact Or.inl rfl, fun a _ => by rw [p2]; exact Nat.one_dvd a, ?_, ?_, ?_⟩
    · intro hn
      by_cases hz : size - prev = 0#32
      · have : (size - prev).toNat = 0 := by rw [hz]; rfl
        omega
      · exact absurd hn (p3 hz).1
    · intro hn
      by_cases hz : size - prev = 0#32
      · exact absurd (p4 hz) hn
      · exact (p3 hz).2
    · intro _ _ m hm; cases hm
  | m :: ms, prev, fs, h, ho, hf => by
    unfold structFields at h
    by_cases hb : m.bitfieldSize ≠ 0#32
    · rw [if_pos hb] at h
      have ho' : InOrder g size.toNat prev.toNat ms := by
        cases ho with
        | bitfield _ h => exact h
        | cons h _ _ _ _ _ => exact absurd h hb
      obtain ⟨i1, i2, i3, i4, i5, i6⟩ := structFields_ok field size ms prev fs h ho' (fun m' hm' => hf m' (List.mem_cons_of_mem _ hm'))
      refine ⟨i1, i2, fun a ha => i3 a (fun m' hm' => ha m' (List.mem_cons_of_mem _ hm')), i4, i5, ?_⟩
      intro fs0 hfs m' hm' hb'
      rcases List.mem_cons.1 hm' with he | he
      · subst he; exact absurd hb' hb
      · exact i6 fs0 hfs m' he hb'
    · rw [if_neg hb] at h
      have hb : m.bitfieldSize = 0#32 := Decidable.not_not.1 hb
      cases hs : sizeof g m.type with
      | error e => rw [hs] at h; cases h
      | ok n =>
        rw [hs] at h
        simp only at h
        have hts : TypeSize g m.type n := (sizeof_exact g m.type n hs).1
        cases ho with
        | bitfield hh _ => exact absurd hb hh
        | @cons _ _ _ n' _ o1 o2 o3 o4 o5 =>
          have hn := typeSize_unique o1 hts
          subst hn
          have hend : m.offset.toNat / 8 + n' ≤ size.toNat := by
            clear h hf hs
            generalize m.offset.toNat / 8 + n' = p at o5
            clear o1 o2 o3 o4 hts
            induction o5 with
            | nil h => exact h
            | bitfield _ _ ih => exact ih
            | cons _ _ hh _ _ _ ih => omega
          have hsz := size.isLt
          have hnext : (bytesOf m.offset + BitVec.ofNat 32 n').toNat = m.offset.toNat / 8 + n' := by
            rw [BitVec.toNat_add, bytesOf_toNat, BitVec.toNat_ofNat]
            omega
          rw [if_neg (by rw [hnext]; omega)] at h
          cases hfm : field m with
          | error e => rw [hfm] at h; cases h
          | ok f =>
            rw [hfm] at h
            simp only at h
            cases hr : structFields g field size (bytesOf m.offset + BitVec.ofNat 32 n') ms with
            | error e => rw [hr] at h; cases h
            | ok r =>
              rw [hr] at h
              simp only [Except.ok.injEq] at h
              obtain ⟨i1, i2, i3, i4, i5, i6⟩ := structFields_ok field size ms _ r hr (by rw [hnext]; exact o5)
                (fun m' hm' => hf m' (List.mem_cons_of_mem _ hm'))
              have F := hf m List.mem_cons_self hb f hfm (m.offset.toNat / 8) n' hts o3
              have hsub : (bytesOf m.offset - prev).toNat = m.offset.toNat / 8 - prev.toNat := by
                rw [BitVec.toNat_sub_of_le (by show prev.toNat ≤ (bytesOf m.offset).toNat; rw [bytesOf_toNat]; exact o2), bytesOf_toNat]
              obtain ⟨p1, p2, p3, p4⟩ := goPadding_spec (R := R) env w (bytesOf m.offset - prev) prev.toNat
              rw [hsub] at p1
              have hp1 : fieldsEnd env w prev.toNat (goPadding (bytesOf m.offset - prev) : GoFields R) = m.offset.toNat / 8 := by
                rw [p1]; omega
              subst h
              rw [hnext] at i1 i4 i6
              refine ⟨?_, ?_, ?_, ?_, ?_, ?_⟩
              · rw [fieldsEnd_append, hp1, fieldsEnd_append, F.fin, i1]
              · rw [fieldsAlign_append, p2, fieldsAlign_append]
                exact pow_max (Or.inl rfl) (pow_max F.pow i2)
              · intro a ha
                rw [fieldsAlign_append, p2, fieldsAlign_append]
                exact max_dvd (Nat.one_dvd a) (max_dvd (F.align a (ha m List.mem_cons_self hb)) (i3 a (fun m' hm' => ha m' (List.mem_cons_of_mem _ hm'))))
              · intro hn
                exfalso
                have hfr : f.append r ≠ .nil := by
                  cases f with
                  | nil => exact absurd rfl F.nonempty
                  | cons _ _ _ => intro hh; simp [GoFields.append] at hh
                cases hpad : (goPadding (bytesOf m.offset - prev) : GoFields R) with
                | nil => rw [hpad] at hn; exact hfr hn
                | cons _ _ _ => rw [hpad] at hn; simp [GoFields.append] at hn
              · intro _
                have hfr : f.append r ≠ .nil := by
                  cases f with
                  | nil => exact absurd rfl F.nonempty
                  | cons _ _ _ => intro hh; simp [GoFields.append] at hh
                rw [lastEmpty_append _ _ _ _ hfr]
                by_cases hrn : r = .nil
                · rw [hrn, append_nil]
                  apply F.last
                  intro hz
                  have h1 := i4 hrn
                  have h2 := o4 hz
                  omega
                · rw [lastEmpty_append _ _ _ _ hrn]
                  exact i5 hrn
              · intro fs0 hfs m' hm' hb'
                rcases List.mem_cons.1 hm' with he | he
                · subst he
                  apply F.shows
                  intro nm o t hat
                  apply hfs
                  apply fieldAt_right
                  rw [hp1]
                  exact fieldAt_left _ _ hat
                · apply i6 fs0 _ m' he hb'
                  intro nm o t hat
                  apply hfs
                  apply fieldAt_right
                  apply fieldAt_right
                  rw [hp1, F.fin]
                  exact hat

/-- A struct whose fields end at its size. -/
theorem goSize_struct {fs : GoFields R} {s : Nat} (h1 : fieldsEnd env w 0 fs = s) (h2 : Pow (fieldsAlign env w fs)) (h3 : fieldsAlign env w fs ∣ s)
    (h4 : fs = .nil → 0 = s) (h5 : fs ≠ .nil → lastEmpty env w fs = false) : goSize env w (.struct fs) = s := by
  simp only [goSize, h1]
  have : ¬ (s ≠ 0 ∧ lastEmpty env w fs = true) := by
    rintro ⟨a, b⟩
    by_cases hn : fs = .nil
    · exact a (h4 hn).symm
    · rw [h5 hn] at b; cases b
  rw [if_neg this]
  exact roundUp_of_dvd (pow_pos h2) h3

/-- The variables of a data section. -/
theorem datasecFields_ok (typ : R → Except GoErr (GoTy R)) (size : BitVec 32) : ∀ (vs : List (VarSecinfo R)) (prev : BitVec 32) (fs : GoFields R),
    datasecFields g typ size prev vs = .ok fs → VarsInOrder g size.toNat prev.toNat vs →
    (∀ v ∈ vs, ∀ nm ty tg, g v.type = .var nm ty 1 tg → ∀ gt, typ ty = .ok gt → TypeOK env w g names gt ty) →
    fieldsEnd env w prev.toNat fs = size.toNat ∧ Pow (fieldsAlign env w fs) ∧
      (∀ a, (∀ v ∈ vs, ∀ nm ty tg, g v.type = .var nm ty 1 tg → AlignedAt g ty a) → fieldsAlign env w fs ∣ a) ∧
      (fs = .nil → prev.toNat = size.toNat) ∧ (fs ≠ .nil → lastEmpty env w fs = false) ∧
      ∀ fs0, (∀ nm o t, FieldAt env w fs prev.toNat nm o t → FieldAt env w fs0 0 nm o t) → ∀ v ∈ vs, ∀ nm ty tg, g v.type = .var nm ty 1 tg →
        ShowsVar g names env w fs0 nm v.offset.toNat ty
  | [], prev, fs, h, ho, _ => by
    simp only [datasecFields, Except.ok.injEq] at h
    have hle : prev.toNat ≤ size.toNat := by cases ho with | nil h => exact h
    have hsub : (size - prev).toNat = size.toNat - prev.toNat := BitVec.toNat_sub_of_le hle
    obtain ⟨p1, p2, p3, p4⟩ := goPadding_spec (R := R) env w (size - prev) prev.toNat
    rw [h] at p1 p2 p3 p4
    refine ⟨by rw [p1, hsub]; omega, by rw [p2]; exact Or.inl rfl, fun a _ => by rw [p2]; exact Nat.one_dvd a, ?_, ?_, ?_⟩
    · intro hn
      by_cases hz : size - prev = 0#32
      · have : (size - prev).toNat = 0 := by rw [hz]; rfl
        omega
      · exact absurd hn (p3 hz).1
    · intro hn
      by_cases hz : size - prev = 0#32
      · exact absurd (p4 hz) hn
      · exact (p3 hz).2
    · intro _ _ m hm; cases hm
  | v :: vs, prev, fs, h, ho, hf => by
    unfold datasecFields at h
    cases hv : g v.type with
    | var nm ty lk tg =>
      rw [hv] at h
      simp only at h
      by_cases hl : lk ≠ 1
      · rw [if_pos hl] at h
        have ho' : VarsInOrder g size.toNat prev.toNat vs := by
          cases ho with
          | skip _ h => exact h
          | cons h _ _ _ _ _ =>
            rw [hv] at h
            simp only [Node.var.injEq] at h
            exact absurd h.2.2.1 hl
        obtain ⟨i1, i2, i3, i4, i5, i6⟩ := datasecFields_ok typ size vs prev fs h ho' (fun m' hm' => hf m' (List.mem_cons_of_mem _ hm'))
        refine ⟨i1, i2, fun a ha => i3 a (fun m' hm' => ha m' (List.mem_cons_of_mem _ hm')), i4, i5, ?_⟩
        intro fs0 hfs m' hm' nm' ty' tg' hb'
        rcases List.mem_cons.1 hm' with he | he
        · subst he
          rw [hv] at hb'
          simp only [Node.var.injEq] at hb'
          exact absurd hb'.2.2.1 hl
        · exact i6 fs0 hfs m' he nm' ty' tg' hb'
      · rw [if_neg hl] at h
        have hl : lk = 1 := Decidable.not_not.1 hl
        subst hl
        by_cases hnm : nm = []
        · rw [if_pos hnm] at h; cases h
        · rw [if_neg hnm] at h
          cases ht : typ ty with
          | error e => rw [ht] at h; cases h
          | ok gt =>
            rw [ht] at h
            simp only at h
            cases hr : datasecFields g typ size (v.offset + v.size) vs with
            | error e => rw [hr] at h; cases h
            | ok r =>
              rw [hr] at h
              simp only [Except.ok.injEq] at h
              have hT := hf v List.mem_cons_self nm ty tg hv gt ht
              cases ho with
              | skip hh _ => exact absurd hv (hh nm ty tg)
              | @cons _ _ _ nm' ty' tg' o0 o1 o2 o3 o4 o5 =>
                rw [hv] at o0
                simp only [Node.var.injEq] at o0
                obtain ⟨rfl, rfl, _, rfl⟩ := o0
                have hsz := size.isLt
                have hgs : goSize env w gt = v.size.toNat := typeSize_unique hT.size o1
                have hend : v.offset.toNat + v.size.toNat ≤ size.toNat := by
                  clear h hf hr o1 o2 o3 o4 hgs
                  generalize v.offset.toNat + v.size.toNat = p at o5
                  induction o5 with
                  | nil h => exact h
                  | skip _ _ ih => exact ih
                  | cons _ _ hh _ _ _ ih => omega
                have hnext : (v.offset + v.size).toNat = v.offset.toNat + v.size.toNat := by
                  rw [BitVec.toNat_add]; omega
                obtain ⟨i1, i2, i3, i4, i5, i6⟩ := datasecFields_ok typ size vs _ r hr (by rw [hnext]; exact o5)
                  (fun m' hm' => hf m' (List.mem_cons_of_mem _ hm'))
                have hsub : (v.offset - prev).toNat = v.offset.toNat - prev.toNat := BitVec.toNat_sub_of_le o2
                obtain ⟨p1, p2, p3, p4⟩ := goPadding_spec (R := R) env w (v.offset - prev) prev.toNat
                rw [hsub] at p1
                have hp1 : fieldsEnd env w prev.toNat (goPadding (v.offset - prev) : GoFields R) = v.offset.toNat := by
                  rw [p1]; omega
                have hru : roundUp v.offset.toNat (goAlign env w gt) = v.offset.toNat := roundUp_of_dvd (pow_pos hT.pow) (hT.align _ o3)
                subst h
                rw [hnext] at i1 i4 i6
                refine ⟨?_, ?_, ?_, ?_, ?_, ?_⟩
                · rw [fieldsEnd_append, hp1]
                  simp only [fieldsEnd]
                  rw [hru, hgs, i1]
                · rw [fieldsAlign_append, p2]
                  simp only [fieldsAlign]
                  exact pow_max (Or.inl rfl) (pow_max hT.pow i2)
                · intro a ha
                  rw [fieldsAlign_append, p2]
                  simp only [fieldsAlign]
                  exact max_dvd (Nat.one_dvd a) (max_dvd (hT.align a (ha v List.mem_cons_self _ _ _ hv)) (i3 a (fun m' hm' => ha m' (List.mem_cons_of_mem _ hm'))))
                · intro hn
                  exfalso
                  cases hpad : (goPadding (v.offset - prev) : GoFields R) with
                  | nil => rw [hpad] at hn; simp [GoFields.append] at hn
                  | cons _ _ _ => rw [hpad] at hn; simp [GoFields.append] at hn
                · intro _
                  rw [lastEmpty_append _ _ _ _ (by simp)]
                  cases r with
                  | nil =>
                    simp only [lastEmpty, beq_eq_false_iff_ne, hgs]
                    intro hz
                    have h1 := i4 rfl
                    have h2 := o4 (BitVec.eq_of_toNat_eq (by rw [hz]; rfl))
                    omega
                  | cons a b c =>
                    simp only [lastEmpty]
                    exact i5 (by simp)
                · intro fs0 hfs m' hm' nm' ty' tg' hb'
                  rcases List.mem_cons.1 hm' with he | he
                  · subst he
                    rw [hv] at hb'
                    simp only [Node.var.injEq] at hb'
                    obtain ⟨rfl, rfl, _, rfl⟩ := hb'
                    refine .mk (hfs _ _ gt ?_) hT.rep
                    apply fieldAt_right
                    rw [hp1]
                    have := @FieldAt.here R env w nm gt r m'.offset.toNat
                    rw [hru] at this
                    exact this
                  · apply i6 fs0 _ m' he nm' ty' tg' hb'
                    intro nm2 o t hat
                    apply hfs
                    apply fieldAt_right
                    apply FieldAt.there
                    rw [hp1, hru, hgs]
                    exact hat
    | _ => rw [hv] at h; cases h

/-! ## everything together -/

theorem intLit_ok (hw : w = 4 ∨ w = 8) {t : R} {n : Bytes} {s : BitVec 32} {e : BitVec 8} (ht : g t = .int n s e)
    (hs : s.toNat = 1 ∨ s.toNat = 2 ∨ s.toNat = 4 ∨ s.toNat = 8 ∨ s.toNat = 16) {gt : GoTy R} (h : writeIntLit s e = .ok gt) :
    TypeOK env w g names gt t := by
  have hbool : s = 1#32 → TypeOK env w g names (.bool : GoTy R) t := by
    intro h1
    subst h1
    exact ⟨.int ht (by simp only [goSize]; rfl), ⟨0, .int ht⟩, Or.inl (by simp only [goAlign]), fun a _ => by simp only [goAlign]; exact Nat.one_dvd a⟩
  have hnum : ∀ sg : Bool, (if s.toNat > 8 then Except.ok (.bytes s.toNat) else Except.ok (.int sg s.toNat) : Except GoErr (GoTy R)) = .ok gt →
      TypeOK env w g names gt t := by
    intro sg hh
    by_cases h8 : s.toNat > 8
    · rw [if_pos h8] at hh
      cases hh
      refine ⟨.int ht (by simp only [goSize]), ⟨0, by simp only [goSize]; exact .int ht⟩, Or.inl (by simp only [goAlign]), fun a _ => ?_⟩
      simp only [goAlign]; exact Nat.one_dvd a
    · rw [if_neg h8] at hh
      cases hh
      refine ⟨.int ht (by simp only [goSize]), ⟨0, by simp only [goSize]; exact .int ht⟩, ?_, fun a ha => ?_⟩
      · simp only [goAlign, Pow]
        omega
      · simp only [goAlign]
        have hd : s.toNat ∣ a := by
          cases ha with
          | int h h2 =>
            rw [ht] at h
            simp only [Node.int.injEq] at h
            obtain ⟨_, rfl, _⟩ := h
            exact h2 (by omega)
          | peel h _ => exact absurd h (not_peel (by rw [ht]; rfl))
          | enum h _ => rw [ht] at h; cases h
          | array h _ => rw [ht] at h; cases h
          | struct h _ => rw [ht] at h; cases h
          | union h _ => rw [ht] at h; cases h
          | datasec h _ => rw [ht] at h; cases h
        have : min s.toNat w ∣ s.toNat := by
          rcases hs with hs | hs | hs | hs | hs <;> rcases hw with hw | hw <;> rw [hs, hw] <;> decide
        exact Nat.dvd_trans this hd
  unfold writeIntLit at h
  simp only at h
  by_cases h4 : e = 4#8
  · rw [if_pos h4] at h
    by_cases h1 : s ≠ 1#32
    · rw [if_pos h1] at h; cases h
    · rw [if_neg h1] at h
      cases h
      exact hbool (Decidable.not_not.1 h1)
  · rw [if_neg h4] at h
    by_cases h2 : e = 2#8
    · rw [if_pos h2] at h
      by_cases h1 : s ≠ 1#32
      · rw [if_pos h1] at h; cases h
      · rw [if_neg h1] at h
        exact hnum false h
    · rw [if_neg h2] at h
      by_cases h0 : e = 0#8
      · rw [if_pos h0] at h; exact hnum false h
      · rw [if_neg h0] at h
        by_cases h1 : e = 1#8
        · rw [if_pos h1] at h; exact hnum true h
        · rw [if_neg h1] at h; cases h

theorem enumLit_ok (hw : w = 4 ∨ w = 8) {t : R} {n : Bytes} {s : BitVec 32} {sg : Bool} {vs : List EnumValue} (ht : g t = .enum n s sg vs)
    {gt : GoTy R} (h : writeEnumLit s sg = .ok gt) : TypeOK env w g names gt t := by
  unfold writeEnumLit at h
  by_cases hs : s = 1#32 ∨ s = 2#32 ∨ s = 4#32 ∨ s = 8#32
  · rw [if_pos hs] at h
    cases h
    have hs' : s.toNat = 1 ∨ s.toNat = 2 ∨ s.toNat = 4 ∨ s.toNat = 8 := by
      rcases hs with rfl | rfl | rfl | rfl <;> decide
    refine ⟨.enum ht (by simp only [goSize]), ⟨0, by simp only [goSize]; exact .enum ht⟩, ?_, fun a ha => ?_⟩
    · simp only [goAlign, Pow]
      omega
    · simp only [goAlign]
      have hd : s.toNat ∣ a := by
        cases ha with
        | enum h h2 =>
          rw [ht] at h
          simp only [Node.enum.injEq] at h
          obtain ⟨_, rfl, _⟩ := h
          exact h2
        | peel h _ => exact absurd h (not_peel (by rw [ht]; rfl))
        | int h _ => rw [ht] at h; cases h
        | array h _ => rw [ht] at h; cases h
        | struct h _ => rw [ht] at h; cases h
        | union h _ => rw [ht] at h; cases h
        | datasec h _ => rw [ht] at h; cases h
      have : min s.toNat w ∣ s.toNat := by
        rcases hs' with hs | hs | hs | hs <;> rcases hw with hw | hw <;> rw [hs, hw] <;> decide
      exact Nat.dvd_trans this hd
  · rw [if_neg hs] at h; cases h

/-- A struct made of the fields of members in order. -/
theorem struct_ok {ms : List (Member R)} {s : BitVec 32} {field : Member R → Except GoErr (GoFields R)} {fs : GoFields R}
    (h : structFields g field s 0#32 ms = .ok fs) (ho : InOrder g s.toNat 0 ms)
    (hal : ∀ m ∈ ms, m.bitfieldSize = 0#32 → AlignedAt g m.type s.toNat)
    (hf : ∀ m ∈ ms, m.bitfieldSize = 0#32 → ∀ fl, field m = .ok fl → ∀ off s, TypeSize g m.type s → AlignedAt g m.type off → FieldOK env w g names fl m off s) :
    goSize env w (.struct fs) = s.toNat ∧ Pow (goAlign env w (.struct fs)) ∧
      (∀ a, (∀ m ∈ ms, m.bitfieldSize = 0#32 → AlignedAt g m.type a) → goAlign env w (.struct fs) ∣ a) ∧
      ∀ m ∈ ms, m.bitfieldSize = 0#32 → Shows g names env w fs m (m.offset.toNat / 8) := by
  obtain ⟨i1, i2, i3, i4, i5, i6⟩ := structFields_ok (env := env) (w := w) (names := names) field s ms 0#32 fs h ho hf
  refine ⟨goSize_struct i1 i2 (i3 _ hal) i4 i5, ?_, ?_, ?_⟩
  · simp only [goAlign]; exact i2
  · simp only [goAlign]; exact i3
  · exact i6 fs (fun _ _ _ h => h)

/-- The three functions of the formatter, together. -/
theorem write_ok (hw : w = 4 ∨ w = 8) (henv : EnvOK env g names) : ∀ (n : Nat),
    (∀ k t gt, writeTypeLit g names n k t = .ok gt → NaturalLit g names t → TypeOK env w g names gt t) ∧
    (∀ k t gt, writeType g names n k t = .ok gt → NaturalLayout g names t → TypeOK env w g names gt t) ∧
    (∀ k m fl, writeStructField g names n k m = .ok fl → (m.name ≠ [] → NaturalLayout g names m.type) → (m.name = [] → NaturalLit g names m.type) →
      ∀ off s, TypeSize g m.type s → AlignedAt g m.type off → FieldOK env w g names fl m off s)
  | 0 => by
    refine ⟨?_, ?_, ?_⟩
    · intro k t gt h; simp only [writeTypeLit] at h; cases h
    · intro k t gt h; simp only [writeType] at h; cases h
    · intro k m fl h; simp only [writeStructField] at h; cases h
  | n + 1 => by
    obtain ⟨ihL, ihT, ihF⟩ := write_ok hw henv n
    refine ⟨?_, ?_, ?_⟩
    · intro k t gt h hnat
      cases k with
      | zero => simp only [writeTypeLit] at h; cases h
      | succ k =>
        unfold writeTypeLit at h
        cases hu : skipQualifiers g t with
        | none => rw [hu] at h; cases h
        | some u =>
          rw [hu] at h
          simp only at h
          obtain ⟨hN, hnq, hback⟩ := qualifiedLoop_ok (env := env) (w := w) (names := names) (P := NaturalLit g names) (fun _ _ => lit_qual) _ t u hu hnat
          apply hback
          clear hback hnat hu
          cases hN with
          | qual hq _ => exact absurd hq (hnq _)
          | int hg hs => rw [hg] at h; exact intLit_ok hw hg hs h
          | enum hg => rw [hg] at h; exact enumLit_ok hw hg h
          | typedef hg hl => rw [hg] at h; exact typeOK_peel (.typedef hg) (ihT _ _ _ h hl)
          | @array _ i e c hg hl =>
            rw [hg] at h
            simp only at h
            cases he : writeType g names n k e with
            | error er => rw [he] at h; cases h
            | ok ge =>
              rw [he] at h
              cases h
              have E := ihT _ _ _ he hl
              refine ⟨.array hg E.rep, ?_, by simp only [goAlign]; exact E.pow, ?_⟩
              · obtain ⟨d, hd⟩ := E.size
                exact ⟨d + 1, by simp only [goSize]; exact .array hg hd⟩
              · intro a ha
                simp only [goAlign]
                apply E.align
                cases ha with
                | array h h2 =>
                  rw [hg] at h
                  simp only [Node.array.injEq] at h
                  obtain ⟨_, rfl, _⟩ := h
                  exact h2
                | peel h _ => exact absurd h (not_peel (by rw [hg]; rfl))
                | int h _ => rw [hg] at h; cases h
                | enum h _ => rw [hg] at h; cases h
                | struct h _ => rw [hg] at h; cases h
                | union h _ => rw [hg] at h; cases h
                | datasec h _ => rw [hg] at h; cases h
          | @struct _ nm s ms ts hg ho hal h1 h2 =>
            rw [hg] at h
            simp only at h
            have hinv : ∀ a, AlignedAt g u a → ∀ m ∈ ms, m.bitfieldSize = 0#32 → AlignedAt g m.type a := by
              intro a ha
              cases ha with
              | struct h h2 =>
                rw [hg] at h
                simp only [Node.struct.injEq] at h
                obtain ⟨_, _, rfl, _⟩ := h
                exact h2
              | peel h _ => exact absurd h (not_peel (by rw [hg]; rfl))
              | int h _ => rw [hg] at h; cases h
              | enum h _ => rw [hg] at h; cases h
              | array h _ => rw [hg] at h; cases h
              | union h _ => rw [hg] at h; cases h
              | datasec h _ => rw [hg] at h; cases h
            cases hsf : structFields g (fun m => writeStructField g names n k m) s 0#32 ms with
            | error e => rw [hsf] at h; cases h
            | ok fs =>
              rw [hsf] at h
              cases h
              obtain ⟨r1, r2, r3, r4⟩ := struct_ok (env := env) (w := w) (names := names) hsf ho (hinv _ hal)
                (fun m hm hb fl hfl => ihF k m fl hfl (h1 m hm hb) (h2 m hm hb))
              exact ⟨.struct hg r1 r4, ⟨0, by rw [r1]; exact .struct hg⟩, r2, fun a ha => r3 a (hinv a ha)⟩
          | @union _ nm s ms ts hg ho hal h1 h2 =>
            rw [hg] at h
            simp only at h
            cases ms with
            | nil => cases h
            | cons m ms =>
              simp only at h
              have hinv : ∀ a, AlignedAt g u a → ∀ m' ∈ [m], m'.bitfieldSize = 0#32 → AlignedAt g m'.type a := by
                intro a ha m' hm'
                have hm'' : m' ∈ m :: ms := by
                  rcases List.mem_singleton.1 hm' with rfl
                  exact List.mem_cons_self
                cases ha with
                | union h h2 =>
                  rw [hg] at h
                  simp only [Node.union.injEq] at h
                  obtain ⟨_, _, rfl, _⟩ := h
                  exact h2 m' hm''
                | peel h _ => exact absurd h (not_peel (by rw [hg]; rfl))
                | int h _ => rw [hg] at h; cases h
                | enum h _ => rw [hg] at h; cases h
                | array h _ => rw [hg] at h; cases h
                | struct h _ => rw [hg] at h; cases h
                | datasec h _ => rw [hg] at h; cases h
              cases hsf : structFields g (fun m => writeStructField g names n k m) s 0#32 [m] with
              | error e => rw [hsf] at h; cases h
              | ok fs =>
                rw [hsf] at h
                cases h
                have hmem : ∀ m' ∈ [m], m' ∈ m :: ms := by
                  intro m' hm'
                  rcases List.mem_singleton.1 hm' with rfl
                  exact List.mem_cons_self
                obtain ⟨r1, r2, r3, r4⟩ := struct_ok (env := env) (w := w) (names := names) hsf (ho m List.mem_cons_self).1 (hinv _ hal)
                  (fun m' hm hb fl hfl => ihF k m' fl hfl (h1 m' (hmem m' hm) hb) (h2 m' (hmem m' hm) hb))
                exact ⟨.union hg r1 (r4 m List.mem_cons_self), ⟨0, by rw [r1]; exact .union hg⟩, r2, fun a ha => r3 a (hinv a ha)⟩
          | @datasec _ nm s vs hg ho hal h1 =>
            rw [hg] at h
            simp only at h
            have hinv : ∀ a, AlignedAt g u a → ∀ v ∈ vs, ∀ nm ty tg, g v.type = .var nm ty 1 tg → AlignedAt g ty a := by
              intro a ha
              cases ha with
              | datasec h h2 =>
                rw [hg] at h
                simp only [Node.datasec.injEq] at h
                obtain ⟨_, _, rfl⟩ := h
                exact h2
              | peel h _ => exact absurd h (not_peel (by rw [hg]; rfl))
              | int h _ => rw [hg] at h; cases h
              | enum h _ => rw [hg] at h; cases h
              | array h _ => rw [hg] at h; cases h
              | union h _ => rw [hg] at h; cases h
              | struct h _ => rw [hg] at h; cases h
            cases hsf : datasecFields g (fun t => writeType g names n k t) s 0#32 vs with
            | error e => rw [hsf] at h; cases h
            | ok fs =>
              rw [hsf] at h
              cases h
              obtain ⟨i1, i2, i3, i4, i5, i6⟩ := datasecFields_ok (env := env) (w := w) (names := names) _ s vs 0#32 fs hsf ho
                (fun v hv nm ty tg hvt gt hgt => ihT k ty gt hgt (h1 v hv nm ty tg hvt))
              have hsz : goSize env w (.struct fs) = s.toNat := goSize_struct i1 i2 (i3 _ (hinv _ hal)) i4 i5
              exact ⟨.datasec hg hsz (i6 fs (fun _ _ _ h => h)), ⟨0, by rw [hsz]; exact .datasec hg⟩, by simp only [goAlign]; exact i2,
                fun a ha => by simp only [goAlign]; exact i3 a (hinv a ha)⟩
    · intro k t gt h hnat
      unfold writeType at h
      cases hu : skipQualifiers g t with
      | none => rw [hu] at h; cases h
      | some u =>
        rw [hu] at h
        simp only at h
        obtain ⟨hN, hnq, hback⟩ := qualifiedLoop_ok (env := env) (w := w) (names := names) (P := NaturalLayout g names) (fun _ _ => layout_qual) _ t u hu hnat
        apply hback
        by_cases hname : names u = true
        · rw [if_pos hname] at h
          cases h
          obtain ⟨e1, e2, e3⟩ := henv u hname
          exact ⟨.named hname, by simp only [goSize]; exact e1, by simp only [goAlign]; exact e2, fun a ha => by simp only [goAlign]; exact e3 a ha⟩
        · rw [if_neg hname] at h
          cases hN with
          | named h' _ => exact absurd h' hname
          | qual hq _ => exact absurd hq (hnq _)
          | lit hl => exact ihL _ _ _ h hl
    · intro k m fl h hnl hna off s hs ha
      unfold writeStructField at h
      by_cases hb : m.bitfieldSize ≠ 0#32
      · rw [if_pos hb] at h; cases h
      · rw [if_neg hb] at h
        by_cases ho : m.offset.toNat % 8 ≠ 0
        · rw [if_pos ho] at h; cases h
        · rw [if_neg ho] at h
          by_cases hnm : m.name = []
          · rw [if_pos hnm] at h
            cases hg : g m.type with
            | union nm size ms ts =>
              rw [hg] at h
              simp only at h
              cases ms with
              | nil => cases h
              | cons m0 ms =>
                simp only at h
                cases k with
                | zero => cases h
                | succ k =>
                  simp only at h
                  cases hs0 : sizeof g m0.type with
                  | error e => rw [hs0] at h; cases h
                  | ok s0 =>
                    rw [hs0] at h
                    simp only at h
                    cases hf : writeStructField g names n k m0 with
                    | error e => rw [hf] at h; cases h
                    | ok f =>
                      rw [hf] at h
                      simp only [Except.ok.injEq] at h
                      have hss : s = size.toNat := typeSize_unique hs ⟨0, .union hg⟩
                      have hN := hna hnm
                      have hb0 : m0.bitfieldSize = 0#32 := by
                        cases n with
                        | zero => simp only [writeStructField] at hf; cases hf
                        | succ n =>
                          unfold writeStructField at hf
                          by_cases hb0 : m0.bitfieldSize ≠ 0#32
                          · rw [if_pos hb0] at hf; cases hf
                          · exact Decidable.not_not.1 hb0
                      have hinv : ∀ a, AlignedAt g m.type a → AlignedAt g m0.type a := by
                        intro a ha
                        cases ha with
                        | union h h2 =>
                          rw [hg] at h
                          simp only [Node.union.injEq] at h
                          obtain ⟨_, _, rfl, _⟩ := h
                          exact h2 m0 List.mem_cons_self hb0
                        | peel h _ => exact absurd h (not_peel (by rw [hg]; rfl))
                        | int h _ => rw [hg] at h; cases h
                        | enum h _ => rw [hg] at h; cases h
                        | array h _ => rw [hg] at h; cases h
                        | struct h _ => rw [hg] at h; cases h
                        | datasec h _ => rw [hg] at h; cases h
                      have hts0 : TypeSize g m0.type s0 := (sizeof_exact g m0.type s0 hs0).1
                      have key : s0 ≤ size.toNat ∧ FieldOK env w g names f m0 off s0 := by
                        cases hN with
                        | union hg' ho hal h1 h2 =>
                          rw [hg] at hg'
                          simp only [Node.union.injEq] at hg'
                          obtain ⟨_, rfl, rfl, _⟩ := hg'
                          refine ⟨?_, ihF k m0 f hf (h1 m0 List.mem_cons_self hb0) (h2 m0 List.mem_cons_self hb0) off s0 hts0 (hinv _ ha)⟩
                          have := (ho m0 List.mem_cons_self).1
                          cases this with
                          | bitfield hh _ => exact absurd hb0 hh
                          | cons _ o1 _ _ _ o5 =>
                            have := typeSize_unique o1 hts0
                            subst this
                            cases o5 with
                            | nil h => omega
                        | qual hq _ => exact absurd (Peel.qual hq) (not_peel (by rw [hg]; rfl))
                        | int h _ => rw [hg] at h; cases h
                        | enum h => rw [hg] at h; cases h
                        | typedef h _ => rw [hg] at h; cases h
                        | array h _ => rw [hg] at h; cases h
                        | struct h _ _ _ _ => rw [hg] at h; cases h
                        | datasec h _ _ _ => rw [hg] at h; cases h
                      obtain ⟨hle, F⟩ := key
                      have hsz := size.isLt
                      have hsub : (size - BitVec.ofNat 32 s0).toNat = size.toNat - s0 := by
                        have h0 : (BitVec.ofNat 32 s0).toNat = s0 := by rw [BitVec.toNat_ofNat]; omega
                        rw [BitVec.toNat_sub_of_le (by show (BitVec.ofNat 32 s0).toNat ≤ size.toNat; omega), h0]
                      obtain ⟨p1, p2, p3, p4⟩ := goPadding_spec (R := R) env w (size - BitVec.ofNat 32 s0) (off + s0)
                      subst h
                      refine ⟨?_, ?_, ?_, ?_, ?_, ?_⟩
                      · cases f with
                        | nil => exact absurd rfl F.nonempty
                        | cons _ _ _ => intro hh; simp [GoFields.append] at hh
                      · rw [fieldsEnd_append, F.fin, p1, hsub]; omega
                      · rw [fieldsAlign_append, p2]; exact pow_max F.pow (Or.inl rfl)
                      · intro a ha
                        rw [fieldsAlign_append, p2]
                        exact max_dvd (F.align a (hinv a ha)) (Nat.one_dvd a)
                      · intro hsne
                        by_cases hz : size - BitVec.ofNat 32 s0 = 0#32
                        · rw [p4 hz, append_nil]
                          apply F.last
                          intro hs00
                          have : (size - BitVec.ofNat 32 s0).toNat = 0 := by rw [hz]; rfl
                          omega
                        · rw [lastEmpty_append _ _ _ _ (p3 hz).1]
                          exact (p3 hz).2
                      · intro fs hfs
                        exact .anon hnm hg (F.shows fs (fun nm o t hat => hfs nm o t (fieldAt_left _ _ hat)))
            | _ => rw [hg] at h; cases h
          · rw [if_neg hnm] at h
            cases ht : writeType g names n k m.type with
            | error e => rw [ht] at h; cases h
            | ok gt =>
              rw [ht] at h
              cases h
              have T := ihT k m.type gt ht (hnl hnm)
              have hgs : goSize env w gt = s := typeSize_unique T.size hs
              have hru : roundUp off (goAlign env w gt) = off := roundUp_of_dvd (pow_pos T.pow) (T.align _ ha)
              refine ⟨by simp, ?_, ?_, ?_, ?_, ?_⟩
              · simp only [fieldsEnd]; rw [hru, hgs]
              · simp only [fieldsAlign]; exact pow_max T.pow (Or.inl rfl)
              · intro a ha
                simp only [fieldsAlign]
                exact max_dvd (T.align a ha) (Nat.one_dvd a)
              · intro hsne
                simp only [lastEmpty, beq_eq_false_iff_ne, hgs]
                exact hsne
              · intro fs hfs
                refine .named hnm (hfs _ _ gt ?_) T.rep
                have := @FieldAt.here R env w m.name gt .nil off
                rw [hru] at this
                exact this

/-- **C68.** For a C type with the ordinary layout, the Go declaration that is written, if there is one, represents it: it has the same size, and
every field is in it at the offset it has in C, on processors with 4 and with 8 byte words. It is also aligned wherever the C type is, so it in turn
can be one of the named types of `env`.

Partial: packed and over-aligned structs, structs ending in a flexible array and the other layouts not covered by `NaturalLit` are excluded, see the
examples below; of unions only the first member is represented, and bit fields are padding. -/
theorem goType_layout_partial (hw : w = 4 ∨ w = 8) (henv : EnvOK env g names) (t : R) (gt : GoTy R) (h : writeTypeDecl g names t = .ok gt)
    (hnat : NaturalLit g names t) :
    Represents g names env w gt t ∧ TypeSize g t (goSize env w gt) ∧ Pow (goAlign env w gt) ∧ ∀ a, AlignedAt g t a → goAlign env w gt ∣ a := by
  unfold writeTypeDecl at h
  cases hu : skipQualifiers g t with
  | none => rw [hu] at h; cases h
  | some u =>
    rw [hu] at h
    simp only at h
    obtain ⟨hN, hnq, hback⟩ := qualifiedLoop_ok (env := env) (w := w) (names := names) (P := NaturalLit g names) (fun _ _ => lit_qual) _ t u hu hnat
    have T := hback gt ((write_ok hw henv 100).1 _ _ _ h hN)
    exact ⟨T.rep, T.size, T.pow, T.align⟩

theorem structFields_fuel (field : Member R → Except GoErr (GoFields R)) (size : BitVec 32) : ∀ (ms : List (Member R)) (prev : BitVec 32),
    structFields g field size prev ms = .error .fuel → ∃ m, field m = .error .fuel
  | [], prev, h => by simp only [structFields] at h; cases h
  | m :: ms, prev, h => by
    unfold structFields at h
    split at h
    · exact structFields_fuel field size ms _ h
    · split at h
      · cases h
      · simp only at h
        split at h
        · cases h
        · split at h
          · rename_i e hm
            cases h
            exact ⟨m, hm⟩
          · split at h
            · rename_i e hr
              cases h
              exact structFields_fuel field size ms _ hr
            · cases h

theorem datasecFields_fuel (typ : R → Except GoErr (GoTy R)) (size : BitVec 32) : ∀ (vs : List (VarSecinfo R)) (prev : BitVec 32),
    datasecFields g typ size prev vs = .error .fuel → ∃ t, typ t = .error .fuel
  | [], prev, h => by simp only [datasecFields] at h; cases h
  | v :: vs, prev, h => by
    unfold datasecFields at h
    split at h
    · rename_i name t linkage tg hv
      split at h
      · exact datasecFields_fuel typ size vs _ h
      · split at h
        · cases h
        · split at h
          · rename_i e hm
            cases h
            exact ⟨t, hm⟩
          · split at h
            · rename_i e hr
              cases h
              exact datasecFields_fuel typ size vs _ hr
            · cases h
    · cases h

/-- The bound on the recursion in the model is never the reason for an error. -/
theorem write_fuel : ∀ (n : Nat),
    (∀ k t, 3 * k + 1 ≤ n → writeTypeLit g names n k t ≠ .error .fuel) ∧
    (∀ k t, 3 * k + 2 ≤ n → writeType g names n k t ≠ .error .fuel) ∧
    (∀ k m, 3 * k + 3 ≤ n → writeStructField g names n k m ≠ .error .fuel)
  | 0 => ⟨fun k t h => by omega, fun k t h => by omega, fun k m h => by omega⟩
  | n + 1 => by
    obtain ⟨ihL, ihT, ihF⟩ := write_fuel n
    refine ⟨?_, ?_, ?_⟩
    · intro k t hn h
      cases k with
      | zero => simp only [writeTypeLit] at h; cases h
      | succ k =>
        unfold writeTypeLit at h
        split at h
        · cases h
        · split at h
          · unfold writeIntLit at h
            simp only at h
            repeat' split at h
            all_goals cases h
          · unfold writeEnumLit at h
            split at h <;> cases h
          · exact ihT _ _ (by omega) h
          · split at h
            · rename_i e he
              cases h
              exact ihT _ _ (by omega) he
            · cases h
          · split at h
            · rename_i e he
              cases h
              obtain ⟨m, hm⟩ := structFields_fuel _ _ _ _ he
              exact ihF _ _ (by omega) hm
            · cases h
          · split at h
            · cases h
            · split at h
              · rename_i e he
                cases h
                obtain ⟨m, hm⟩ := structFields_fuel _ _ _ _ he
                exact ihF _ _ (by omega) hm
              · cases h
          · split at h
            · rename_i e he
              cases h
              obtain ⟨m, hm⟩ := datasecFields_fuel _ _ _ _ he
              exact ihT _ _ (by omega) hm
            · cases h
          · exact ihL _ _ (by omega) h
          · cases h
    · intro k t hn h
      unfold writeType at h
      split at h
      · cases h
      · split at h
        · cases h
        · exact ihL _ _ (by omega) h
    · intro k m hn h
      unfold writeStructField at h
      split at h
      · cases h
      · split at h
        · cases h
        · split at h
          · split at h
            · split at h
              · cases h
              · split at h
                · cases h
                · split at h
                  · cases h
                  · split at h
                    · rename_i e he
                      cases h
                      exact ihF _ _ (by omega) he
                    · cases h
            · cases h
          · split at h
            · rename_i e he
              cases h
              exact ihT _ _ (by omega) he
            · cases h

theorem writeTypeDecl_fuel (t : R) : writeTypeDecl g names t ≠ .error .fuel := by
  unfold writeTypeDecl
  split
  · intro h; cases h
  · exact (write_fuel 100).1 _ _ (by decide)

/-- Constants written for an enum are in the range of its Go type if the values are: then the generated code compiles. -/
theorem enumConsts_fit (s : BitVec 32) (sg : Bool) (vs : List EnumValue) (n : Bytes) (i : Int) (h : (n, i) ∈ enumConsts sg vs)
    (hs : ∀ v ∈ vs, if sg then - 2 ^ (8 * s.toNat - 1) ≤ v.value.toInt ∧ v.value.toInt < 2 ^ (8 * s.toNat - 1) else v.value.toNat < 2 ^ (8 * s.toNat)) :
    (∃ v ∈ vs, v.name = n ∧ v.value = BitVec.ofInt 64 i) ∧
      (if sg then - 2 ^ (8 * s.toNat - 1) ≤ i ∧ i < 2 ^ (8 * s.toNat - 1) else 0 ≤ i ∧ i < 2 ^ (8 * s.toNat)) := by
  unfold enumConsts at h
  obtain ⟨v, hv, he⟩ := List.mem_map.1 h
  cases he
  have := hs v hv
  refine ⟨⟨v, hv, rfl, ?_⟩, ?_⟩
  · cases sg
    · simp only [Bool.false_eq_true, if_false]
      exact ((BitVec.ofInt_natCast 64 v.value.toNat).trans (by simp)).symm
    · simp only [if_true]
      exact BitVec.ofInt_toInt.symm
  · cases sg
    · simp only [Bool.false_eq_true, if_false] at this ⊢
      refine ⟨by omega, ?_⟩
      exact_mod_cast this
    · simpa only [if_true] using this

end

/-! ## examples -/

namespace GoEx

/-- `0`: u8, `1`: u32, `2`: u64, `3`: u16, `4`: `u16[3]`, `5`: `union { u64 x; u8 y; }`,
`10`: `struct { u8 a; u32 b; union { u64 x; u8 y; }; u16 c[3]; }`,
`11`: a packed struct, `12`: a struct with a flexible array, `13`: an empty union, `14`, `15`, `16`: variables, `17`, `18`: data sections,
`19`: a packed struct with its members out of order, `20`: an integer of 3 bytes, `21`: `u32[0]`. -/
def g : Graph Nat
  | 0 => .int [1] 1#32 0#8
  | 1 => .int [2] 4#32 0#8
  | 2 => .int [3] 8#32 0#8
  | 3 => .int [4] 2#32 0#8
  | 4 => .array 1 3 3#32
  | 5 => .union [] 8#32 [⟨[10], 2, 0#32, 0#32, []⟩, ⟨[11], 0, 0#32, 0#32, []⟩] []
  | 10 => .struct [5] 24#32 [⟨[12], 0, 0#32, 0#32, []⟩, ⟨[13], 1, 32#32, 0#32, []⟩, ⟨[], 5, 64#32, 0#32, []⟩, ⟨[14], 4, 128#32, 0#32, []⟩] []
  | 11 => .struct [6] 5#32 [⟨[12], 0, 0#32, 0#32, []⟩, ⟨[13], 1, 8#32, 0#32, []⟩] []
  | 12 => .struct [7] 4#32 [⟨[12], 1, 0#32, 0#32, []⟩, ⟨[13], 21, 32#32, 0#32, []⟩] []
  | 13 => .union [8] 0#32 [] []
  | 14 => .var [20] 12 1 []
  | 15 => .var [21] 1 1 []
  | 16 => .var [22] 2 1 []
  | 17 => .datasec [30] 20#32 [⟨14, 0#32, 16#32⟩, ⟨15, 16#32, 4#32⟩]
  | 18 => .datasec [31] 9#32 [⟨16, 0#32, 8#32⟩, ⟨22, 8#32, 1#32⟩]
  | 19 => .struct [9] 8#32 [⟨[12], 1, 32#32, 0#32, []⟩, ⟨[13], 1, 0#32, 0#32, []⟩] []
  | 20 => .int [4] 3#32 0#8
  | 21 => .array 1 1 0#32
  | 22 => .var [23] 0 1 []
  | _ => .void

/-- No names. -/
def names : Nat → Bool := fun _ => false

/-- No names. -/
def env : Nat → Nat × Nat := fun _ => (0, 1)

theorem env_ok : EnvOK env g names := by intro u h; cases h

/-- `struct { a uint8; _ [3]byte; b uint32; x uint64; c [3]uint16; _ [2]byte }` -/
example : writeTypeDecl g names 10 = .ok (.struct (.cons (some [12]) (.int false 1) (.cons none (.bytes 3) (.cons (some [13]) (.int false 4)
    (.cons (some [10]) (.int false 8) (.cons (some [14]) (.array 3 (.int false 2)) (.cons none (.bytes 2) .nil))))))) := by rfl

theorem al8 : AlignedAt g 0 8 ∧ AlignedAt g 1 8 ∧ AlignedAt g 2 8 ∧ AlignedAt g 3 8 := by
  refine ⟨.int rfl fun _ => ?_, .int rfl fun _ => ?_, .int rfl fun _ => ?_, .int rfl fun _ => ?_⟩ <;> decide

theorem nat10 : NaturalLit g names 10 := by
  have hts5 : TypeSize g 5 8 := ⟨0, .union (n := []) (s := 8#32) rfl⟩
  have al5 : ∀ a, 8 ∣ a → AlignedAt g 5 a := by
    intro a ha
    refine .union rfl ?_
    intro m hm _
    simp only [List.mem_cons, List.not_mem_nil, or_false] at hm
    rcases hm with rfl | rfl
    · exact .int rfl fun _ => ha
    · exact .int rfl fun _ => Nat.one_dvd a
  refine .struct (t := 10) (s := 24#32) rfl ?_ ?_ ?_ ?_
  · refine .cons rfl ⟨0, .int (t := 0) (s := 1#32) rfl⟩ (by decide) (.int rfl fun _ => by decide) (by decide) ?_
    refine .cons rfl ⟨0, .int (t := 1) (s := 4#32) rfl⟩ (by decide) (.int rfl fun _ => by decide) (by decide) ?_
    refine .cons rfl hts5 (by decide) (al5 _ (by decide)) (by decide) ?_
    refine .cons rfl ⟨1, .array (t := 4) (k := 3#32) rfl (.int (t := 3) (s := 2#32) rfl)⟩ (by decide) (.array rfl (.int rfl fun _ => by decide)) (by decide) ?_
    exact .nil (by decide)
  · refine .struct rfl ?_
    intro m hm _
    simp only [List.mem_cons, List.not_mem_nil, or_false] at hm
    rcases hm with rfl | rfl | rfl | rfl
    · exact .int rfl fun _ => by decide
    · exact .int rfl fun _ => by decide
    · exact al5 _ (by decide)
    · exact .array rfl (.int rfl fun _ => by decide)
  · intro m hm _ hn
    simp only [List.mem_cons, List.not_mem_nil, or_false] at hm
    rcases hm with rfl | rfl | rfl | rfl
    · exact .lit (.int rfl (by decide))
    · exact .lit (.int rfl (by decide))
    · exact absurd rfl hn
    · exact .lit (.array rfl (.lit (.int rfl (by decide))))
  · intro m hm _ hn
    simp only [List.mem_cons, List.not_mem_nil, or_false] at hm
    rcases hm with rfl | rfl | rfl | rfl
    · cases hn
    · cases hn
    · refine .union (t := 5) (s := 8#32) rfl ?_ (al5 _ (by decide)) ?_ ?_
      · intro m hm
        simp only [List.mem_cons, List.not_mem_nil, or_false] at hm
        rcases hm with rfl | rfl
        · exact ⟨.cons rfl ⟨0, .int (t := 2) (s := 8#32) rfl⟩ (by decide) (.int rfl fun _ => by decide) (by decide) (.nil (by decide)), rfl⟩
        · exact ⟨.cons rfl ⟨0, .int (t := 0) (s := 1#32) rfl⟩ (by decide) (.int rfl fun _ => by decide) (by decide) (.nil (by decide)), rfl⟩
      · intro m hm _ _
        simp only [List.mem_cons, List.not_mem_nil, or_false] at hm
        rcases hm with rfl | rfl
        · exact .lit (.int rfl (by decide))
        · exact .lit (.int rfl (by decide))
      · intro m hm _ hn
        simp only [List.mem_cons, List.not_mem_nil, or_false] at hm
        rcases hm with rfl | rfl <;> cases hn
    · cases hn

/-- The hypotheses of `goType_layout_partial` are met by an ordinary struct. -/
example : ∃ gt, writeTypeDecl g names 10 = .ok gt ∧ Represents g names env 4 gt 10 ∧ TypeSize g 10 (goSize env 4 gt) :=
  ⟨_, rfl, (goType_layout_partial (Or.inl rfl) env_ok 10 _ rfl nat10).1, (goType_layout_partial (Or.inl rfl) env_ok 10 _ rfl nat10).2.1⟩

/-- A declaration is written, but its size is not that of the C type. -/
def WrongSize (t : Nat) (c go : Nat) : Prop := TypeSize g t c ∧ ∃ gt, writeTypeDecl g names t = .ok gt ∧ goSize env 8 gt = go

/-- `struct { u8 a; u32 b; } __packed` has 5 bytes in C and 8 in Go, where `b` is at offset 4 instead of 1. -/
example : WrongSize 11 5 8 := ⟨⟨0, .struct (s := 5#32) rfl⟩, _, rfl, by decide⟩

/-- `struct { u32 n; u32 data[]; }` has 4 bytes in C and 8 in Go, because the field at the end has size zero. -/
example : WrongSize 12 4 8 := ⟨⟨0, .struct (s := 4#32) rfl⟩, _, rfl, by decide⟩

/-- There is no padding at the end of data sections in C: a `u64` and a `u8` have 9 bytes, in Go it is 16. -/
example : WrongSize 18 9 16 := ⟨⟨0, .datasec (s := 9#32) rfl⟩, _, rfl, by decide⟩

/-- A variable with a flexible array that has an initialiser is larger than its type: the variables after it are at the wrong offset. -/
example : WrongSize 17 20 12 := ⟨⟨0, .datasec (s := 20#32) rfl⟩, _, rfl, by decide⟩

/-- Members that are not in the order of their offsets: the padding wraps around. -/
example : WrongSize 19 8 4294967304 := ⟨⟨0, .struct (s := 8#32) rfl⟩, _, rfl, by decide⟩

/-- An integer of 3 bytes is written as `uint24`, which is no Go type. -/
example : writeTypeDecl g names 20 = .ok (.int false 3) := by rfl

/-- An empty union panics. -/
example : writeTypeDecl g names 13 = .error .panic := by rfl

end GoEx

end Ebpf.Btf

import Verif.Model.BtfDatasec
import Verif.Spec.BtfDatasec
import Verif.Props.BtfTypes
/-!
# C31: fixing up the layout of data sections
-/
namespace Ebpf.Btf
open Ebpf.BtfSpec
variable {R : Type}

theorem isPow_iff (n : Nat) : isPow n = true ↔ ∃ k, n = 2 ^ k := by
  have := Nat.ne_zero_and_sub_one_eq_zero_iff_isPowerOfTwo (n := n)
  simp only [Nat.isPowerOfTwo] at this
  rw [← this]
  simp [isPow, bne_iff_ne]

theorem hasAlign_peels {g : Graph R} {d : Nat} {t u : R} {a : Nat} (h : Steps (Peel g) d t u) (ha : HasAlign g u a) : HasAlign g t a := by
  induction h with
  | refl => exact ha
  | step hp _ ih => exact .peel hp (ih ha)

/-- The alignment computed is that of the specification and a power of two. -/
theorem alignof_sound (g : Graph R) : ∀ (k : Nat) (t : R) (a : Nat), alignof g k t = .ok a →
    HasAlign g t a ∧ (∃ j, a = 2 ^ j) ∧ a < 2 ^ 32
  | 0, t, a, h => by simp [alignof] at h
  | k + 1, t, a, h => by
    unfold alignof at h
    cases hu : underlyingType g t with
    | none => rw [hu] at h; simp at h
    | some u =>
      rw [hu] at h
      obtain ⟨d, _, hs, _⟩ := (underlyingType_exact g t u).1 hu
      have fin : ∀ (s : BitVec 32), HasAlign g u s.toNat →
          (if isPow s.toNat = true then (Except.ok s.toNat : Except AlignErr Nat) else .error .notPow) = .ok a →
          HasAlign g t a ∧ (∃ j, a = 2 ^ j) ∧ a < 2 ^ 32 := by
        intro s hs' h
        split at h
        · rename_i hp
          injection h with h; subst h
          exact ⟨hasAlign_peels hs hs', (isPow_iff _).1 hp, s.isLt⟩
        · simp at h
      cases hg : g u with
      | enum n s sg vs => simp only [hg] at h; exact fin s (.enum hg) h
      | int n s e => simp only [hg] at h; exact fin s (.int hg) h
      | array i e n =>
        simp only [hg] at h
        obtain ⟨h1, h2⟩ := alignof_sound g k e a h
        exact ⟨hasAlign_peels hs (.array hg h1), h2⟩
      | _ => simp [hg] at h

theorem hasSize_peel {g : Graph R} {t t' : R} {d m : Nat} (hp : Peel g t t') (h : HasSize g d t m) : ∃ d', d = d' + 1 ∧ HasSize g d' t' m := by
  rcases hp with hq | hg
  · rcases hq with hg | hg | hg | hg <;> cases h <;> simp_all
  · cases h <;> simp_all

theorem hasSize_peels {g : Graph R} {n : Nat} {t u : R} {d m : Nat} (hp : Steps (Peel g) n t u) (h : HasSize g d t m) :
    ∃ d', d = d' + n ∧ HasSize g d' u m := by
  induction hp generalizing d with
  | refl => exact ⟨d, rfl, h⟩
  | step hp _ ih =>
    obtain ⟨d1, rfl, h1⟩ := hasSize_peel hp h
    obtain ⟨d2, rfl, h2⟩ := ih h1
    exact ⟨d2, by omega, h2⟩

/-- On a type which has a size, reached through `d` wrappers, `alignof` recurses at most `d` times. -/
theorem alignof_terminates (g : Graph R) : ∀ (k : Nat) (t : R) (d m : Nat), HasSize g d t m → d < k →
    alignof g k t ≠ .error .diverges
  | 0, t, d, m, _, h => by omega
  | k + 1, t, d, m, hs, hd => by
    unfold alignof
    cases hu : underlyingType g t with
    | none => simp
    | some u =>
      obtain ⟨n, _, hst, _⟩ := (underlyingType_exact g t u).1 hu
      obtain ⟨d', rfl, h'⟩ := hasSize_peels hst hs
      cases hg : g u with
      | enum n s sg vs => simp only [hg]; split <;> simp
      | int n s e => simp only [hg]; split <;> simp
      | array i e n =>
        simp only [hg]
        cases h' <;> simp_all
        rename_i h'' _
        exact alignof_terminates g k _ _ _ h'' (by omega)
      | _ => simp [hg]

/-- So the fuel used by `layoutLoop` is never exhausted. -/
theorem alignof_enough (g : Graph R) (t : R) (m : Nat) (h : sizeof g t = .ok m) :
    alignof g (maxResolveDepth + 1) t ≠ .error .diverges := by
  obtain ⟨d, s, hs, hd, _⟩ := sizeofLoop_sound g _ _ t m (by decide) h
  exact alignof_terminates g _ t d s hs (by omega)

theorem round_up (n a : Nat) (h : 0 < a) : n ≤ (n + a - 1) / a * a ∧ a ∣ (n + a - 1) / a * a ∧ (n + a - 1) / a * a < n + a := by
  refine ⟨?_, Nat.dvd_mul_left _ _, ?_⟩
  · have h1 := Nat.div_add_mod (n + a - 1) a
    have h2 := Nat.mod_lt (n + a - 1) h
    rw [Nat.mul_comm] at h1
    omega
  · have := Nat.div_mul_le_self (n + a - 1) a
    omega

theorem align32_exact (n : BitVec 32) (a : Nat) (h : ∃ j, a = 2 ^ j) (h32 : a < 2 ^ 32) (hfit : (n.toNat + a - 1) / a * a < 2 ^ 32) :
    (align32 n (BitVec.ofNat 32 a)).toNat = (n.toNat + a - 1) / a * a := by
  obtain ⟨j, rfl⟩ := h
  have hj : j < 32 := (Nat.pow_lt_pow_iff_right (by decide)).1 h32
  have hpos : 0 < 2 ^ j := Nat.two_pow_pos j
  obtain ⟨h1, h2, h3⟩ := round_up n.toNat (2 ^ j) hpos
  -- the rounded value is a multiple of 2^j below 2^32, so at most 2^32 - 2^j
  have hdvd : 2 ^ j ∣ 2 ^ 32 := Nat.pow_dvd_pow 2 (by omega)
  have hle : (n.toNat + 2 ^ j - 1) / 2 ^ j * 2 ^ j + 2 ^ j ≤ 2 ^ 32 := by
    obtain ⟨q, hq⟩ := hdvd
    rw [hq, Nat.mul_comm] at hfit
    have hlt := Nat.lt_of_mul_lt_mul_left hfit
    rw [hq, ← Nat.succ_mul, Nat.mul_comm]
    exact Nat.mul_le_mul_left _ hlt
  have hn : n.toNat + 2 ^ j - 1 < 2 ^ 32 := by omega
  have ha : (BitVec.ofNat 32 (2 ^ j)).toNat = 2 ^ j := by
    rw [BitVec.toNat_ofNat]; exact Nat.mod_eq_of_lt h32
  have hs : (n + BitVec.ofNat 32 (2 ^ j) - 1).toNat = n.toNat + 2 ^ j - 1 := by
    rw [BitVec.toNat_sub, BitVec.toNat_add, ha]
    show ((2 ^ 32 - 1) + (n.toNat + 2 ^ j) % 2 ^ 32) % 2 ^ 32 = _
    omega
  unfold align32
  rw [BitVec.toNat_mul, BitVec.toNat_udiv, hs, ha, Nat.mod_eq_of_lt hfit]

theorem peel_det {g : Graph R} {t u v : R} (h : Peel g t u) (h' : Peel g t v) : u = v := by
  have h1 := (peel?_iff g t u).2 h
  have h2 := (peel?_iff g t v).2 h'
  rw [h1] at h2; exact Option.some.inj h2

theorem hasAlign_unique {g : Graph R} {t : R} {a b : Nat} (h : HasAlign g t a) (h' : HasAlign g t b) : a = b := by
  induction h generalizing b with
  | int hg =>
    cases h' with
    | peel hp _ => have := (peel?_iff g _ _).2 hp; rw [hg] at this; cases this
    | _ => simp_all
  | enum hg =>
    cases h' with
    | peel hp _ => have := (peel?_iff g _ _).2 hp; rw [hg] at this; cases this
    | _ => simp_all
  | array hg _ ih =>
    cases h' with
    | peel hp _ => have := (peel?_iff g _ _).2 hp; rw [hg] at this; cases this
    | array hg' h' => rw [hg] at hg'; injection hg' with _ h2 _; subst h2; exact ih h'
    | _ => simp_all
  | peel hp _ ih =>
    cases h' with
    | peel hp' h' => have := peel_det hp hp'; subst this; exact ih h'
    | int hg => have := (peel?_iff g _ _).2 hp; rw [hg] at this; cases this
    | enum hg => have := (peel?_iff g _ _).2 hp; rw [hg] at this; cases this
    | array hg => have := (peel?_iff g _ _).2 hp; rw [hg] at this; cases this

theorem hasSize_underlying {g : Graph R} {d m : Nat} {t : R} (h : HasSize g d t m) :
    ∃ n u, n ≤ d ∧ Steps (Peel g) n t u ∧ ∀ v, ¬ Peel g u v := by
  have stop : ∀ t, (g t).peel? = none → ∃ n u, n ≤ 0 ∧ Steps (Peel g) n t u ∧ ∀ v, ¬ Peel g u v := fun t h =>
    ⟨0, t, Nat.le_refl _, .refl t, fun v hp => by rw [(peel?_iff g t v).2 hp] at h; cases h⟩
  have go : ∀ {t t' : R} {d : Nat}, Peel g t t' → (∃ n u, n ≤ d ∧ Steps (Peel g) n t' u ∧ ∀ v, ¬ Peel g u v) →
      ∃ n u, n ≤ d + 1 ∧ Steps (Peel g) n t u ∧ ∀ v, ¬ Peel g u v := fun hp ⟨n, u, h1, h2, h3⟩ =>
    ⟨n + 1, u, by omega, .step hp h2, h3⟩
  induction h with
  | array hg _ _ => obtain ⟨n, u, h1, h2, h3⟩ := stop _ (by rw [hg]; rfl); exact ⟨n, u, by omega, h2, h3⟩
  | typedef hg _ ih => exact go (.typedef hg) ih
  | volatile hg _ ih => exact go (.qual (.volatile hg)) ih
  | const hg _ ih => exact go (.qual (.const hg)) ih
  | restrict hg _ ih => exact go (.qual (.restrict hg)) ih
  | typeTag hg _ ih => exact go (.qual (.typeTag hg)) ih
  | _ hg => exact stop _ (by rw [hg]; rfl)

theorem hasAlign_underlying {g : Graph R} {n a : Nat} {t u : R} (h : Steps (Peel g) n t u) (ha : HasAlign g t a) : HasAlign g u a := by
  induction h with
  | refl => exact ha
  | step hp _ ih =>
    cases ha with
    | peel hp' h' => have := peel_det hp hp'; subst this; exact ih h'
    | int hg => have := (peel?_iff g _ _).2 hp; rw [hg] at this; cases this
    | enum hg => have := (peel?_iff g _ _).2 hp; rw [hg] at this; cases this
    | array hg => have := (peel?_iff g _ _).2 hp; rw [hg] at this; cases this

/-- Conversely a type with a size (through at most 32 wrappers) whose alignment is a power of two is given that alignment. -/
theorem alignof_complete (g : Graph R) : ∀ (k : Nat) (t : R) (d m a : Nat), HasSize g d t m → d < k → d ≤ 32 → HasAlign g t a →
    (∃ j, a = 2 ^ j) → alignof g k t = .ok a
  | 0, _, _, _, _, _, h, _, _, _ => by omega
  | k + 1, t, d, m, a, hs, hd, h32, ha, hp => by
    obtain ⟨n, u, hn, hst, hstop⟩ := hasSize_underlying hs
    obtain ⟨d', rfl, hs'⟩ := hasSize_peels hst hs
    have hu : underlyingType g t = some u := (underlyingType_exact g t u).2 ⟨n, by omega, hst, hstop⟩
    have ha' := hasAlign_underlying hst ha
    have hpw := (isPow_iff a).2 hp
    unfold alignof
    rw [hu]
    cases ha' with
    | int hg => simp only [hg, hpw, if_true]
    | enum hg => simp only [hg, hpw, if_true]
    | peel hp' _ => exact absurd hp' (hstop _)
    | array hg h' =>
      simp only [hg]
      cases hs' with
      | array hg2 hs2 => 
        rw [hg] at hg2; injection hg2 with _ he _; subst he
        exact alignof_complete g k _ _ _ a hs2 (by omega) (by omega) h' hp
      | _ => simp_all

theorem layout_mono {g : Graph R} {off E : Nat} {vs : List R} {os : List Nat} (h : Layout g off vs os E) : off ≤ E := by
  induction h with
  | nil => exact Nat.le_refl _
  | cons _ _ _ h1 _ _ _ ih => omega

theorem varType?_some {nd : Node R} {t : R} (h : nd.varType? = some t) : ∃ n l ts, nd = .var n t l ts := by
  cases nd <;> simp_all [Node.varType?]

theorem layoutLoop_ok (g : Graph R) : ∀ (vs : List (VarSecinfo R)) (off : BitVec 32) (ws : List (VarSecinfo R)) (e : BitVec 32),
    layoutLoop g off vs = (ws, .ok e) →
      (∀ n, ∃ os E, Layout g n (vs.map (·.type)) os E) ∧
      ∀ os E, Layout g off.toNat (vs.map (·.type)) os E → E < 2 ^ 32 →
        e.toNat = E ∧ ws = List.zipWith (fun v o => { v with offset := BitVec.ofNat 32 o }) vs os ∧ os.length = vs.length
  | [], off, ws, e, h => by
    simp only [layoutLoop, Prod.mk.injEq, Except.ok.injEq] at h
    refine ⟨fun n => ⟨[], n, .nil _⟩, ?_⟩
    intro os E hl _
    cases hl
    exact ⟨by rw [h.2], by simp [← h.1], rfl⟩
  | v :: vs, off, ws, e, h => by
    unfold layoutLoop at h
    cases hv : (g v.type).varType? with
    | none => rw [hv] at h; simp at h
    | some t =>
      rw [hv] at h; simp only at h
      cases hs : sizeof g t with
      | error e => rw [hs] at h; simp at h
      | ok size =>
        rw [hs] at h; simp only at h
        cases ha : alignof g (maxResolveDepth + 1) t with
        | error e => rw [ha] at h; simp at h
        | ok al =>
          rw [ha] at h; simp only [Prod.mk.injEq] at h
          obtain ⟨h1, h2⟩ := h
          obtain ⟨n, l, ts, hvar⟩ := varType?_some hv
          obtain ⟨⟨d, hsz⟩, hszlt⟩ := sizeof_exact g t size hs
          obtain ⟨hal, hpow, hal32⟩ := alignof_sound g _ t al ha
          have hpos : 0 < al := by obtain ⟨j, rfl⟩ := hpow; exact Nat.two_pow_pos j
          obtain ⟨ihE, ihU⟩ := layoutLoop_ok g vs _ _ e (Prod.ext rfl h2)
          refine ⟨?_, ?_⟩
          · intro n0
            obtain ⟨r1, r2, r3⟩ := round_up n0 al hpos
            obtain ⟨os, E, hl⟩ := ihE ((n0 + al - 1) / al * al + size)
            exact ⟨_ :: os, E, .cons hvar hsz hal r1 r2 r3 hl⟩
          · intro os E hl hE
            simp only [List.map_cons] at hl
            cases hl with
            | @cons _ _ _ t' _ _ _ sz' al' o _ os _ hvar' hsz' hal' ho1 ho2 ho3 hl' =>
              rw [hvar] at hvar'
              injection hvar' with _ ht
              subst ht
              obtain ⟨_, rfl⟩ := hasSize_unique g hsz hsz'
              have := hasAlign_unique hal hal'; subst this
              have hmono := layout_mono hl'
              obtain ⟨r1, r2, r3⟩ := round_up off.toNat al hpos
              have ho : o = (off.toNat + al - 1) / al * al := by
                obtain ⟨q, rfl⟩ := ho2
                obtain ⟨q', hq'⟩ := r2
                rw [hq'] at r1 r3 ⊢
                have hx : al * q < al * q' + al := by omega
                have hy : al * q' < al * q + al := by omega
                rw [← Nat.mul_succ] at hx hy
                have := Nat.lt_of_mul_lt_mul_left hx
                have := Nat.lt_of_mul_lt_mul_left hy
                have : q = q' := by omega
                rw [this]
              have hal2 := align32_exact off al hpow hal32 (by omega)
              have hoff : (align32 off (BitVec.ofNat 32 al) + BitVec.ofNat 32 size).toNat = o + size := by
                rw [BitVec.toNat_add, hal2, ← ho, BitVec.toNat_ofNat]
                omega
              rw [← hoff] at hl'
              obtain ⟨e1, e2, e3⟩ := ihU os E hl' hE
              refine ⟨e1, ?_, by simp [e3]⟩
              replace e2 : (layoutLoop g (align32 off (BitVec.ofNat 32 al) + BitVec.ofNat 32 size) vs).fst = _ := e2
              rw [← h1, e2, List.zipWith_cons_cons]
              congr 2
              apply BitVec.eq_of_toNat_eq
              rw [hal2, ← ho, BitVec.toNat_ofNat]
              omega

theorem layout_placed {g : Graph R} {off E : Nat} {vs : List R} {os : List Nat} (h : Layout g off vs os E) :
    ∀ (i : Nat) (v : R) (o : Nat), vs[i]? = some v → os[i]? = some o → ∃ n t l ts d sz al, g v = .var n t l ts ∧ HasSize g d t sz ∧
      HasAlign g t al ∧ al ∣ o ∧ off ≤ o ∧ o + sz ≤ E ∧ ∀ (j o' : Nat), os[j]? = some o' → i < j → o + sz ≤ o' := by
  induction h with
  | nil => intro i v o h; simp at h
  | @cons off v n t l ts d sz al o vs os e hv hs ha h1 h2 h3 hl ih =>
    intro i v' o' hi ho
    cases i with
    | zero =>
      simp only [List.getElem?_cons_zero, Option.some.injEq] at hi ho
      subst hi; subst ho
      refine ⟨n, t, l, ts, d, sz, al, hv, hs, ha, h2, h1, layout_mono hl, ?_⟩
      intro j o' hj hlt
      cases j with
      | zero => omega
      | succ j =>
        simp only [List.getElem?_cons_succ] at hj
        have : ∃ w, vs[j]? = some w := by
          have hlen : ∀ {a b : Nat} {vs : List R} {os : List Nat}, Layout g a vs os b → vs.length = os.length := by
            intro a b vs os h; induction h <;> simp_all
          have hl' := hlen hl
          obtain ⟨hj', _⟩ := List.getElem?_eq_some_iff.1 hj
          exact ⟨vs[j], List.getElem?_eq_getElem (by omega)⟩
        obtain ⟨w, hw⟩ := this
        obtain ⟨_, _, _, _, _, _, _, _, _, _, _, hoff, _⟩ := ih j w o' hw hj
        exact hoff
    | succ i =>
      simp only [List.getElem?_cons_succ] at hi ho
      obtain ⟨n, t, l, ts, d, sz', al, a1, a2, a3, a4, a5, a6, a7⟩ := ih i v' o' hi ho
      refine ⟨n, t, l, ts, d, sz', al, a1, a2, a3, a4, by omega, a6, ?_⟩
      intro j o'' hj hlt
      cases j with
      | zero => omega
      | succ j => exact a7 j o'' hj (by omega)

theorem layoutLoop_pow (g : Graph R) : ∀ (vs : List (VarSecinfo R)) (off : BitVec 32) (ws : List (VarSecinfo R)) (e : BitVec 32),
    layoutLoop g off vs = (ws, .ok e) → ∀ v ∈ vs, ∀ n t l ts, g v.type = .var n t l ts → ∀ al, HasAlign g t al → ∃ k, al = 2 ^ k
  | [], _, _, _, _ => by simp
  | v :: vs, off, ws, e, h => by
    unfold layoutLoop at h
    cases hv : (g v.type).varType? with
    | none => rw [hv] at h; simp at h
    | some t =>
      rw [hv] at h; simp only at h
      cases hs : sizeof g t with
      | error e => rw [hs] at h; simp at h
      | ok size =>
        rw [hs] at h; simp only at h
        cases ha : alignof g (maxResolveDepth + 1) t with
        | error e => rw [ha] at h; simp at h
        | ok al =>
          rw [ha] at h; simp only [Prod.mk.injEq] at h
          obtain ⟨h1, h2⟩ := h
          obtain ⟨n, l, ts, hvar⟩ := varType?_some hv
          obtain ⟨hal, hpow, hal32⟩ := alignof_sound g _ t al ha
          intro w hw n' t' l' ts' hw' al' hal'
          rcases List.mem_cons.1 hw with rfl | hw
          · rw [hvar] at hw'; injection hw' with _ ht; subst ht
            rw [← hasAlign_unique hal hal']; exact hpow
          · exact layoutLoop_pow g vs _ _ e (Prod.ext rfl h2) w hw n' t' l' ts' hw' al' hal'

/-- If the C layout of the section needs less than 4 GiB, the result is that layout. -/
theorem layout_exact (g : Graph R) (vs ws : List (VarSecinfo R)) (e : BitVec 32) (h : layoutLoop g 0 vs = (ws, .ok e)) :
    (∃ os E, Layout g 0 (vs.map (·.type)) os E) ∧
    ∀ os E, Layout g 0 (vs.map (·.type)) os E → E < 2 ^ 32 →
      e.toNat = E ∧ ws.map (·.type) = vs.map (·.type) ∧ ws.map (·.size) = vs.map (·.size) ∧ ws.map (·.offset.toNat) = os ∧ WellPlaced g ws e := by
  obtain ⟨h1, h2⟩ := layoutLoop_ok g vs 0 ws e h
  refine ⟨h1 0, ?_⟩
  intro os E hl hE
  obtain ⟨e1, e2, e3⟩ := h2 os E hl hE
  have hplaced := layout_placed hl
  have hget : ∀ (i : Nat) (w : VarSecinfo R), ws[i]? = some w → ∃ (v : VarSecinfo R) (o : Nat), vs[i]? = some v ∧ os[i]? = some o ∧ w.type = v.type ∧ w.offset.toNat = o := by
    intro i w hw
    rw [e2, List.getElem?_zipWith] at hw
    cases hv : vs[i]? with
    | none => rw [hv] at hw; simp at hw
    | some v =>
      cases ho : os[i]? with
      | none => rw [hv, ho] at hw; simp at hw
      | some o =>
        rw [hv, ho] at hw
        simp only [Option.some.injEq] at hw
        obtain ⟨_, _, _, _, _, _, _, _, _, _, _, _, hle, _⟩ := hplaced i v.type o (by rw [List.getElem?_map, hv]; rfl) ho
        refine ⟨v, o, rfl, rfl, by rw [← hw], ?_⟩
        rw [← hw]; show (BitVec.ofNat 32 o).toNat = o
        rw [BitVec.toNat_ofNat]; omega
  have hlen : ws.length = vs.length := by rw [e2, List.length_zipWith, e3, Nat.min_self]
  refine ⟨e1, ?_, ?_, ?_, ?_⟩
  · apply List.ext_getElem? ; intro i
    rw [List.getElem?_map, List.getElem?_map]
    cases hw : ws[i]? with
    | none => rw [List.getElem?_eq_none_iff, hlen, ← List.getElem?_eq_none_iff] at hw; rw [hw]
    | some w => obtain ⟨v, o, hv, _, ht, _⟩ := hget i w hw; rw [hv]; simp [ht]
  · rw [e2]; clear hget hplaced hl h2 h1 e2 hlen h hE
    induction vs generalizing os with
    | nil => simp
    | cons v vs ih => cases os with
      | nil => simp at e3
      | cons o os => simp only [List.zipWith_cons_cons, List.map_cons, List.cons.injEq, true_and]; exact ih os (by simpa using e3)
  · apply List.ext_getElem? ; intro i
    rw [List.getElem?_map]
    cases hw : ws[i]? with
    | none => rw [List.getElem?_eq_none_iff, hlen, ← e3, ← List.getElem?_eq_none_iff] at hw; simp [hw]
    | some w => obtain ⟨v, o, _, ho, _, h'⟩ := hget i w hw; rw [ho]; simp [h']
  · intro i w hw
    obtain ⟨v, o, hv, ho, ht, hoo⟩ := hget i w hw
    obtain ⟨n, t, l, ts, d, sz, al, a1, a2, a3, a4, a5, a6, a7⟩ := hplaced i v.type o (by rw [List.getElem?_map, hv]; rfl) ho
    have hpow : ∃ k, al = 2 ^ k := layoutLoop_pow g vs 0 ws e h v (List.mem_of_getElem? hv) n t l ts a1 al a3
    refine ⟨n, t, l, ts, d, sz, al, by rw [ht]; exact a1, a2, a3, by rw [hoo]; exact a4, hpow, by rw [hoo, e1]; exact a6, ?_⟩
    intro j w' hw' hlt
    obtain ⟨v', o', hv', ho', ht', hoo'⟩ := hget j w' hw'
    rw [hoo, hoo']
    exact a7 j o' ho' hlt

/-- The layout succeeds when every member is a variable whose type has a non-zero size below 2^63, through at most 31 wrappers,
and a power of two alignment. -/
theorem layout_total (g : Graph R) : ∀ (vs : List (VarSecinfo R)) (off : BitVec 32),
    (∀ v ∈ vs, ∃ n t l ts d m a, g v.type = .var n t l ts ∧ HasSize g d t m ∧ d < 32 ∧ m ≠ 0 ∧ m < 2 ^ 63 ∧ HasAlign g t a ∧ ∃ j, a = 2 ^ j) →
    ∃ ws e, layoutLoop g off vs = (ws, .ok e)
  | [], off, _ => ⟨[], off, rfl⟩
  | v :: vs, off, h => by
    obtain ⟨n, t, l, ts, d, m, a, hv, hs, hd, hm0, hm, ha, hp⟩ := h v (List.mem_cons_self ..)
    have h1 := sizeof_complete g t d m hs hd hm0 hm
    have h2 := alignof_complete g (maxResolveDepth + 1) t d m a hs (by simp only [maxResolveDepth]; omega) (by omega) ha hp
    obtain ⟨ws, e, hr⟩ := layout_total g vs (align32 off (BitVec.ofNat 32 a) + BitVec.ofNat 32 m) (fun w hw => h w (List.mem_cons_of_mem _ hw))
    refine ⟨{ v with offset := align32 off (BitVec.ofNat 32 a) } :: ws, e, ?_⟩
    rw [layoutLoop, hv]
    simp only [Node.varType?, h1, h2, hr]

section fix
variable [DecidableEq R]

theorem setGlobal_cons_var {g : Graph R} {v : VarSecinfo R} (vs : List (VarSecinfo R)) {n t l ts} (hv : g v.type = .var n t l ts) :
    setGlobal g (v :: vs) = setGlobal (setNode g v.type (.var n t globalVar ts)) vs := by rw [setGlobal, hv]

theorem setGlobal_cons_other {g : Graph R} {v : VarSecinfo R} (vs : List (VarSecinfo R)) (hv : ∀ n t l ts, g v.type ≠ .var n t l ts) :
    setGlobal g (v :: vs) = setGlobal g vs := by
  rw [setGlobal]
  split
  · rename_i h; exact absurd h (hv _ _ _ _)
  · rfl

theorem setGlobal_same (x : R) : ∀ (vs : List (VarSecinfo R)) (g : Graph R), (∀ n t l ts, g x ≠ .var n t l ts) → setGlobal g vs x = g x
  | [], g, _ => rfl
  | v :: vs, g, h => by
    by_cases hc : ∃ n t l ts, g v.type = .var n t l ts
    · obtain ⟨n, t, l, ts, hv⟩ := hc
      rw [setGlobal_cons_var vs hv]
      have hne : x ≠ v.type := fun he => h _ _ _ _ (he ▸ hv)
      have hx : setNode g v.type (.var n t globalVar ts) x = g x := by simp [setNode, hne]
      rw [setGlobal_same x vs _ (by rw [hx]; exact h), hx]
    · rw [setGlobal_cons_other vs (fun n t l ts hv => hc ⟨n, t, l, ts, hv⟩)]
      exact setGlobal_same x vs g h

theorem setGlobal_var (x : R) (n : Bytes) (t : R) (ts : List Bytes) : ∀ (vs : List (VarSecinfo R)) (g : Graph R) (l : Int),
    g x = .var n t l ts → setGlobal g vs x = .var n t (if x ∈ vs.map (·.type) then globalVar else l) ts
  | [], g, l, h => by simp [setGlobal, h]
  | v :: vs, g, l, h => by
    by_cases hx : x = v.type
    · subst hx
      rw [setGlobal_cons_var vs h, setGlobal_var v.type n t ts vs _ globalVar (by simp [setNode])]
      simp
    · by_cases hc : ∃ n t l ts, g v.type = .var n t l ts
      · obtain ⟨n', t', l', ts', hv⟩ := hc
        rw [setGlobal_cons_var vs hv, setGlobal_var x n t ts vs _ l (by simp [setNode, hx, h])]
        simp [hx]
      · rw [setGlobal_cons_other vs (fun n t l ts hv => hc ⟨n, t, l, ts, hv⟩), setGlobal_var x n t ts vs _ l h]
        simp [hx]

/-- **C31.** When the fix-up of `.kconfig` succeeds the variables have a C layout, and if that needs less than 4 GiB, the section
has its size and every variable is at its aligned offset, in order, disjoint and inside the section. Types and sizes of the
variables are unchanged and all of them get global linkage; no other type changes. -/
theorem kconfig_layout_partial (elf : ElfData) (st st' : FixState R) (t : R) (size : BitVec 32) (vars : List (VarSecinfo R))
    (hg : st.g t = .datasec (lit ".kconfig") size vars) (hf : st.fixups t = false)
    (h : fixupDatasec elf st t = (st', none)) :
    (∃ os E, Layout st.g 0 (vars.map (·.type)) os E) ∧
    ∀ os E, Layout st.g 0 (vars.map (·.type)) os E → E < 2 ^ 32 → ∃ size' vars', st'.g t = .datasec (lit ".kconfig") size' vars' ∧
      size'.toNat = E ∧ vars'.map (·.type) = vars.map (·.type) ∧ vars'.map (·.size) = vars.map (·.size) ∧
      vars'.map (·.offset.toNat) = os ∧ WellPlaced st.g vars' size' ∧
      (∀ x n ty l ts, st.g x = .var n ty l ts →
        st'.g x = .var n ty (if x ∈ vars.map (·.type) then globalVar else l) ts) ∧
      (∀ x, x ≠ t → (∀ n ty l ts, st.g x ≠ .var n ty l ts) → st'.g x = st.g x) := by
  have e1 : lit ".kconfig" = dotKconfig := by decide
  have e2 : dotKconfig ≠ dotKsyms := by decide
  rw [e1] at hg ⊢
  unfold fixupDatasec at h
  simp only [hg, hf, Bool.false_eq_true, if_false, e2, if_true] at h
  cases hl : layoutLoop st.g 0 vars with
  | mk vars' r =>
    rw [hl] at h
    cases r with
    | error e => simp at h
    | ok off =>
      simp only [Prod.mk.injEq, and_true] at h
      subst h
      obtain ⟨h1, h2⟩ := layout_exact st.g vars vars' off hl
      refine ⟨h1, ?_⟩
      intro os E hL hE
      obtain ⟨a1, a2, a3, a4, a5⟩ := h2 os E hL hE
      refine ⟨off, vars', ?_, a1, a2, a3, a4, a5, ?_, ?_⟩
      · show setGlobal _ vars' t = _
        rw [setGlobal_same t vars' _ (by simp [setNode])]
        simp [setNode]
      · intro x n ty l ts hx
        have hxt : x ≠ t := by intro he; subst he; rw [hg] at hx; cases hx
        show setGlobal _ vars' x = _
        rw [setGlobal_var x n ty ts vars' _ l (by simp [setNode, hxt, hx]), a2]
      · intro x hxt hx
        show setGlobal _ vars' x = _
        rw [setGlobal_same x vars' _ (by simpa [setNode, hxt] using hx)]
        simp [setNode, hxt]

omit [DecidableEq R] in
theorem elfOffsets_ok (elf : ElfData) (g : Graph R) (sec : Bytes) : ∀ (vs ws : List (VarSecinfo R)), elfOffsets elf g sec vs = (ws, none) →
    ws.map (·.type) = vs.map (·.type) ∧ ws.map (·.size) = vs.map (·.size) ∧
    ∀ w ∈ ws, elf.symbolOffsets sec (g w.type).name = some w.offset
  | [], ws, h => by simp only [elfOffsets, Prod.mk.injEq] at h; simp [← h.1]
  | v :: vs, ws, h => by
    unfold elfOffsets at h
    cases ho : elf.symbolOffsets sec (g v.type).name with
    | none => rw [ho] at h; simp at h
    | some o =>
      rw [ho] at h; simp only [Prod.mk.injEq] at h
      obtain ⟨i1, i2, i3⟩ := elfOffsets_ok elf g sec vs _ (Prod.ext rfl h.2)
      rw [← h.1]
      refine ⟨by simp [i1], by simp [i2], ?_⟩
      intro w hw
      rcases List.mem_cons.1 hw with rfl | hw
      · exact ho
      · exact i3 w hw

/-- Other sections without a recorded size take the size of the ELF section and the offsets of the ELF symbols. -/
theorem elf_section_exact (elf : ElfData) (st st' : FixState R) (t : R) (name : Bytes) (vars : List (VarSecinfo R))
    (hg : st.g t = .datasec name 0 vars) (hf : st.fixups t = false) (h1 : name ≠ lit ".kconfig") (h2 : name ≠ lit ".ksyms")
    (h : fixupDatasec elf st t = (st', none)) :
    ∃ size' vars', st'.g t = .datasec name size' vars' ∧ elf.sectionSizes name = some size' ∧
      vars'.map (·.type) = vars.map (·.type) ∧ vars'.map (·.size) = vars.map (·.size) ∧
      (∀ w ∈ vars', elf.symbolOffsets name (st.g w.type).name = some w.offset) ∧ ∀ x, x ≠ t → st'.g x = st.g x := by
  have e1 : lit ".kconfig" = dotKconfig := by decide
  have e2 : lit ".ksyms" = dotKsyms := by decide
  rw [e1] at h1; rw [e2] at h2
  unfold fixupDatasec at h
  simp only [hg, hf, Bool.false_eq_true, if_false, h1, h2, ne_eq, not_true_eq_false] at h
  cases hs : elf.sectionSizes name with
  | none => rw [hs] at h; simp at h
  | some size' =>
    rw [hs] at h; simp only [Prod.mk.injEq] at h
    obtain ⟨i1, i2, i3⟩ := elfOffsets_ok elf st.g name vars _ (Prod.ext rfl h.2)
    refine ⟨size', _, by rw [← h.1]; simp [setNode], rfl, i1, i2, i3, ?_⟩
    intro x hx; rw [← h.1]; simp [setNode, hx]

/-- A second fix-up of the same section does nothing. -/
theorem fixup_once (elf : ElfData) (st : FixState R) (t : R) :
    fixupDatasec elf (fixupDatasec elf st t).1 t = ((fixupDatasec elf st t).1, none) := by
  generalize hs : (fixupDatasec elf st t).1 = st'
  cases hg : st.g t with
  | datasec name size vars =>
    have key : (∃ n s vs, st'.g t = .datasec n s vs) ∧ st'.fixups t = true := by
      rw [← hs]
      unfold fixupDatasec
      simp only [hg]
      by_cases hf : st.fixups t = true
      · rw [if_pos hf]; exact ⟨⟨_, _, _, hg⟩, hf⟩
      · rw [if_neg hf]
        by_cases h1 : name = dotKsyms
        · rw [if_pos h1]
          split <;> exact ⟨⟨_, _, _, hg⟩, by simp⟩
        · rw [if_neg h1]
          by_cases h2 : name = dotKconfig
          · rw [if_pos h2]
            cases hl : layoutLoop st.g 0 vars with
            | mk vars' r =>
              cases r with
              | error e => exact ⟨⟨name, size, vars', by simp [setNode]⟩, by simp⟩
              | ok off =>
                refine ⟨⟨name, off, vars', ?_⟩, by simp⟩
                show setGlobal _ vars' t = _
                rw [setGlobal_same t vars' _ (by simp [setNode])]
                simp [setNode]
          · rw [if_neg h2]
            split
            · exact ⟨⟨_, _, _, hg⟩, by simp⟩
            · split
              · exact ⟨⟨_, _, _, hg⟩, by simp⟩
              · exact ⟨⟨_, _, _, by simp [setNode]; exact ⟨rfl, rfl, rfl⟩⟩, by simp⟩
    obtain ⟨⟨n, s, vs, h1⟩, h2⟩ := key
    unfold fixupDatasec
    simp only [h1, h2, if_true]
  | _ =>
    have : st' = st := by rw [← hs]; unfold fixupDatasec; simp only [hg]
    subst this
    unfold fixupDatasec
    simp only [hg]

/-- So after a fix-up failed, asking for the type again succeeds, with the section as the failed attempt left it. -/
theorem fixup_retry_succeeds (elf : ElfData) (st st' : FixState R) (t : R) (e : SecErr) (h : fixupDatasec elf st t = (st', some e)) :
    fixupDatasec elf st' t = (st', none) := by
  have := fixup_once elf st t
  rw [h] at this; exact this

end fix

/-- `.kconfig` with an `int`, a `char`, and a `long` array; 3 is the section. -/
def exKconfig : Graph Nat
  | 0 => .int (lit "int") 4 1
  | 1 => .int (lit "char") 1 1
  | 2 => .int (lit "long") 8 1
  | 3 => .datasec (lit ".kconfig") 0 [⟨4, 0, 0⟩, ⟨5, 0, 0⟩, ⟨6, 0, 0⟩]
  | 4 => .var (lit "a") 1 2 []
  | 5 => .var (lit "b") 0 2 []
  | 6 => .var (lit "c") 7 2 []
  | 7 => .array 0 2 5
  | 8 => .array 0 0 0x40000000
  | 9 => .var (lit "huge") 8 2 []
  | 10 => .datasec (lit ".kconfig") 0 [⟨9, 0, 0⟩, ⟨5, 0, 0⟩]
  | _ => .void

def noElf : ElfData := ⟨fun _ => none, fun _ _ => none⟩

/-- The hypotheses of `kconfig_layout_partial` are met: offsets 0, 4, 8 in 48 bytes. -/
example : layoutLoop exKconfig 0 [⟨4, 0, 0⟩, ⟨5, 0, 0⟩, ⟨6, 0, 0⟩] = ([⟨4, 0, 0⟩, ⟨5, 4, 0⟩, ⟨6, 8, 0⟩], .ok 48) := by decide
example : (fixupDatasec noElf ⟨exKconfig, fun _ => false⟩ 3).2 = none := by decide

/-- What is missing in `kconfig_layout_partial`: a variable of 4 GiB makes the offset wrap, so the next one overlaps it
and the section is reported to be 4 bytes long. -/
theorem huge_variable_overlaps : layoutLoop exKconfig 0 [⟨9, 0, 0⟩, ⟨5, 0, 0⟩] = ([⟨9, 0, 0⟩, ⟨5, 0, 0⟩], .ok 4) ∧
    sizeof exKconfig 8 = .ok (2 ^ 32) := by decide

/-- A data section whose ELF section is missing is reported once; the second time it is returned with no size. -/
theorem missing_section_returned :
    ∃ (elf : ElfData) (st : FixState Nat), (fixupDatasec elf st 0).2 = some .missingSize ∧
      (fixupDatasec elf (fixupDatasec elf st 0).1 0).2 = none ∧
      (fixupDatasec elf (fixupDatasec elf st 0).1 0).1.g 0 = .datasec (lit ".data") 0 [] :=
  ⟨noElf, ⟨fun _ => .datasec (lit ".data") 0 [], fun _ => false⟩, by decide, by decide, by decide⟩

/-- .ksyms holds variables and functions, and is left alone. -/
theorem ksyms_exact [DecidableEq R] (elf : ElfData) (st : FixState R) (t : R) (size : BitVec 32) (vars : List (VarSecinfo R)) (hg : st.g t = .datasec (lit ".ksyms") size vars) (hf : st.fixups t = false) :
    ((fixupDatasec elf st t).2 = none ↔ ∀ v ∈ vars, (∃ n t' l ts, st.g v.type = .var n t' l ts) ∨ ∃ n t' l ts p, st.g v.type = .func n t' l ts p) ∧ (fixupDatasec elf st t).1.g = st.g := by
  have e2 : lit ".ksyms" = dotKsyms := by decide
  rw [e2] at hg
  unfold fixupDatasec
  simp only [hg, hf, Bool.false_eq_true, if_false, if_true]
  split
  · rename_i h
    refine ⟨⟨fun _ v hv => ?_, fun _ => rfl⟩, rfl⟩
    have := List.all_eq_true.mp h v hv
    cases hn : st.g v.type <;> rw [hn] at this <;> simp at this ⊢
  · rename_i h
    refine ⟨⟨fun h => (by cases h), fun ha => (h (List.all_eq_true.mpr fun v hv => ?_)).elim⟩, rfl⟩
    rcases ha v hv with ⟨n, t', l, ts, he⟩ | ⟨n, t', l, ts, p, he⟩ <;> rw [he]

theorem elfOffsets_iff (elf : ElfData) (g : Graph R) (sec : Bytes) : ∀ (vs : List (VarSecinfo R)), (elfOffsets elf g sec vs).2 = none ↔ ∀ v ∈ vs, elf.symbolOffsets sec (g v.type).name ≠ none
  | [] => by simp [elfOffsets]
  | v :: vs => by
    unfold elfOffsets
    cases ho : elf.symbolOffsets sec (g v.type).name with
    | none => simp [ho]
    | some o => simp [ho, elfOffsets_iff elf g sec vs]

/-- A section without a recorded size is accepted if the ELF has it, and symbols for all its variables. -/
theorem elf_section_iff [DecidableEq R] (elf : ElfData) (st : FixState R) (t : R) (name : Bytes) (vars : List (VarSecinfo R)) (hg : st.g t = .datasec name 0 vars) (hf : st.fixups t = false)
    (h1 : name ≠ lit ".kconfig") (h2 : name ≠ lit ".ksyms") :
    (fixupDatasec elf st t).2 = none ↔ elf.sectionSizes name ≠ none ∧ ∀ v ∈ vars, elf.symbolOffsets name (st.g v.type).name ≠ none := by
  have e1 : lit ".kconfig" = dotKconfig := by decide
  have e2 : lit ".ksyms" = dotKsyms := by decide
  rw [e1] at h1; rw [e2] at h2
  unfold fixupDatasec
  simp only [hg, hf, Bool.false_eq_true, if_false, h1, h2, ne_eq, not_true_eq_false]
  cases hs : elf.sectionSizes name with
  | none => simp
  | some size' => simp [elfOffsets_iff]

/-- A section with a recorded size is left alone. -/
theorem sized_section [DecidableEq R] (elf : ElfData) (st : FixState R) (t : R) (name : Bytes) (size : BitVec 32) (vars : List (VarSecinfo R)) (hg : st.g t = .datasec name size vars)
    (h0 : size ≠ 0) (h1 : name ≠ lit ".kconfig") (h2 : name ≠ lit ".ksyms") : (fixupDatasec elf st t).2 = none ∧ (fixupDatasec elf st t).1.g = st.g := by
  have e1 : lit ".kconfig" = dotKconfig := by decide
  have e2 : lit ".ksyms" = dotKsyms := by decide
  rw [e1] at h1; rw [e2] at h2
  unfold fixupDatasec
  simp only [hg]
  split
  · exact ⟨rfl, rfl⟩
  · simp

end Ebpf.Btf

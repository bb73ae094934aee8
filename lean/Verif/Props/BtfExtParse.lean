import Verif.Props.BtfExtInfo
/-!
# C59: parsing `.BTF.ext`
-/
namespace Ebpf.Btf
open Ebpf.BtfSpec

/-! ## Records -/

theorem get32l_iff (bo : ByteOrder) (bs r : Bytes) (x : BitVec 32) : bo.get32l bs = some (x, r) ↔ bs = bo.put32 x ++ r := by
  constructor
  · intro h
    match bs, h with
    | a :: b :: c :: d :: t, h =>
      simp only [ByteOrder.get32l, Option.some.injEq, Prod.mk.injEq] at h
      obtain ⟨rfl, rfl⟩ := h
      rw [put32_get32]; rfl
  · rintro rfl; exact get32l_put32 bo x r

theorem read2_iff (bo : ByteOrder) (bs r : Bytes) (a b : BitVec 32) : read2 bo bs = some ((a, b), r) ↔ bs = bo.put32 a ++ (bo.put32 b ++ r) := by
  constructor
  · intro h
    unfold read2 at h
    split at h
    · cases h
    · next a' bs1 h1 =>
      split at h
      · cases h
      · next b' bs2 h2 =>
        simp only [Option.some.injEq, Prod.mk.injEq] at h
        obtain ⟨⟨rfl, rfl⟩, rfl⟩ := h
        rw [(get32l_iff ..).1 h1, (get32l_iff ..).1 h2]
  · rintro rfl; exact read2_enc bo a b r

theorem read4_iff (bo : ByteOrder) (bs r : Bytes) (a b c d : BitVec 32) : read4 bo bs = some ((a, b, c, d), r) ↔ bs = enc4 bo a b c d ++ r := by
  constructor
  · intro h
    unfold read4 at h
    split at h
    · cases h
    · next a' b' bs1 h1 =>
      split at h
      · cases h
      · next c' d' bs2 h2 =>
        simp only [Option.some.injEq, Prod.mk.injEq] at h
        obtain ⟨⟨rfl, rfl, rfl, rfl⟩, rfl⟩ := h
        rw [(read2_iff ..).1 h1, (read2_iff ..).1 h2]
        simp [enc4]
  · rintro rfl; exact read4_enc bo a b c d r

theorem toInsnOff_iff (off o : BitVec 32) : toInsnOff true off = some o ↔ OffFits o ∧ off = o * 8 := by
  simp only [toInsnOff, OffFits]
  have e1 : off % 8 = 0 ↔ off.toNat % 8 = 0 := by rw [← BitVec.toNat_inj]; simp
  constructor
  · intro h
    by_cases h0 : off % 8 = 0
    · simp only [ite_true, ne_eq, h0, not_true, ite_false, Option.some.injEq] at h
      subst h
      have := e1.1 h0
      have := off.isLt
      refine ⟨?_, ?_⟩
      · simp; omega
      · apply BitVec.eq_of_toNat_eq; simp; omega
    · simp only [ite_true] at h
      rw [if_pos h0] at h; cases h
  · rintro ⟨h, rfl⟩
    have t : (o * 8).toNat = o.toNat * 8 := by simp; omega
    have h0 : (o * 8) % 8 = 0 := by rw [← BitVec.toNat_inj, BitVec.toNat_umod, t]; simp
    simp only [ite_true, ne_eq, h0, not_true, ite_false, Option.some.injEq]
    apply BitVec.eq_of_toNat_eq
    rw [BitVec.toNat_udiv, t]; simp

/-- A parser of `n` records that accepts exactly `n` valid encodings. -/
def ExactParser {α : Type} (parse : Nat → Bytes → Option (List α × Bytes)) (enc : α → Bytes) (ok : α → Prop) : Prop :=
  ∀ n bs rs rest, parse n bs = some (rs, rest) ↔ rs.length = n ∧ (∀ r ∈ rs, ok r) ∧ bs = (rs.map enc).flatten ++ rest

theorem readFuncRecs_exact (bo : ByteOrder) : ExactParser (readFuncRecs bo true) (encFuncRec bo) (fun r => OffFits r.insnOff) := by
  intro n
  induction n with
  | zero =>
    intro bs rs rest
    simp only [readFuncRecs, Option.some.injEq, Prod.mk.injEq, List.length_eq_zero_iff]
    constructor
    · rintro ⟨rfl, rfl⟩; simp
    · rintro ⟨rfl, _, rfl⟩; simp
  | succ n ih =>
    intro bs rs rest
    constructor
    · intro h
      unfold readFuncRecs at h
      split at h
      · cases h
      · next off id bs1 h1 =>
        split at h
        · cases h
        · next o ho =>
          split at h
          · cases h
          · next rs' bs2 h2 =>
            simp only [Option.some.injEq, Prod.mk.injEq] at h
            obtain ⟨rfl, rfl⟩ := h
            obtain ⟨q1, q2, q3⟩ := (ih ..).1 h2
            obtain ⟨o1, rfl⟩ := (toInsnOff_iff ..).1 ho
            refine ⟨by simp [q1], ?_, ?_⟩
            · intro r hr
              rcases List.mem_cons.1 hr with rfl | hr
              · exact o1
              · exact q2 r hr
            · rw [(read2_iff ..).1 h1, q3]; simp [encFuncRec, encFunc]
    · rintro ⟨q1, q2, rfl⟩
      cases rs with
      | nil => simp at q1
      | cons r rs =>
        simp only [List.length_cons, Nat.add_right_cancel_iff] at q1
        have h2 := (ih ((rs.map (encFuncRec bo)).flatten ++ rest) rs rest).2 ⟨q1, fun r hr => q2 r (by simp [hr]), rfl⟩
        have h3 := (toInsnOff_iff (r.insnOff * 8) r.insnOff).2 ⟨q2 r (by simp), rfl⟩
        simp only [readFuncRecs, List.map_cons, List.flatten_cons, List.append_assoc]
        rw [show encFuncRec bo r ++ ((rs.map (encFuncRec bo)).flatten ++ rest) =
          bo.put32 (r.insnOff * 8) ++ (bo.put32 r.typeID ++ ((rs.map (encFuncRec bo)).flatten ++ rest)) by simp [encFuncRec, encFunc], read2_enc]
        simp only [h3, h2]

theorem readReloRecs_exact (bo : ByteOrder) : ExactParser (readReloRecs bo) (encReloRec bo) (fun r => OffFits r.insnOff) := by
  intro n
  induction n with
  | zero =>
    intro bs rs rest
    simp only [readReloRecs, Option.some.injEq, Prod.mk.injEq, List.length_eq_zero_iff]
    constructor
    · rintro ⟨rfl, rfl⟩; simp
    · rintro ⟨rfl, _, rfl⟩; simp
  | succ n ih =>
    intro bs rs rest
    constructor
    · intro h
      unfold readReloRecs at h
      split at h
      · cases h
      · next off id acc k bs1 h1 =>
        split at h
        · cases h
        · next o ho =>
          split at h
          · cases h
          · next rs' bs2 h2 =>
            simp only [Option.some.injEq, Prod.mk.injEq] at h
            obtain ⟨rfl, rfl⟩ := h
            obtain ⟨q1, q2, q3⟩ := (ih ..).1 h2
            obtain ⟨o1, rfl⟩ := (toInsnOff_iff ..).1 ho
            refine ⟨by simp [q1], ?_, ?_⟩
            · intro r hr
              rcases List.mem_cons.1 hr with rfl | hr
              · exact o1
              · exact q2 r hr
            · rw [(read4_iff ..).1 h1, q3]; simp [encReloRec]
    · rintro ⟨q1, q2, rfl⟩
      cases rs with
      | nil => simp at q1
      | cons r rs =>
        simp only [List.length_cons, Nat.add_right_cancel_iff] at q1
        have h2 := (ih ((rs.map (encReloRec bo)).flatten ++ rest) rs rest).2 ⟨q1, fun r hr => q2 r (by simp [hr]), rfl⟩
        have h3 := (toInsnOff_iff (r.insnOff * 8) r.insnOff).2 ⟨q2 r (by simp), rfl⟩
        simp only [readReloRecs, List.map_cons, List.flatten_cons, List.append_assoc]
        have h4 := read4_enc bo (r.insnOff * 8) r.typeID r.accessOff r.kind ((rs.map (encReloRec bo)).flatten ++ rest)
        rw [show encReloRec bo r = enc4 bo (r.insnOff * 8) r.typeID r.accessOff r.kind from rfl, h4]
        simp only [h3, h2]

theorem readLines_exact (bo : ByteOrder) :
    ExactParser (readLines bo) (fun r => enc4 bo r.insnOff r.fileOff r.lineOff r.lineCol) (fun _ => True) := by
  intro n
  induction n with
  | zero =>
    intro bs rs rest
    simp only [readLines, Option.some.injEq, Prod.mk.injEq, List.length_eq_zero_iff]
    constructor
    · rintro ⟨rfl, rfl⟩; simp
    · rintro ⟨rfl, _, rfl⟩; simp
  | succ n ih =>
    intro bs rs rest
    constructor
    · intro h
      unfold readLines at h
      split at h
      · cases h
      · next off id acc k bs1 h1 =>
        split at h
        · cases h
        · next rs' bs2 h2 =>
          simp only [Option.some.injEq, Prod.mk.injEq] at h
          obtain ⟨rfl, rfl⟩ := h
          obtain ⟨q1, q2, q3⟩ := (ih ..).1 h2
          refine ⟨by simp [q1], fun _ _ => trivial, ?_⟩
          rw [(read4_iff ..).1 h1, q3]; simp
    · rintro ⟨h, _, rfl⟩
      rw [← h, readLines_enc]

theorem convertOffs_iff : ∀ (rs rs' : List LineRec), convertOffs true rs = some rs' ↔
    (∀ r ∈ rs', OffFits r.insnOff) ∧ rs = rs'.map fun r => { r with insnOff := r.insnOff * 8 }
  | [], rs' => by
    simp only [convertOffs, Option.some.injEq]
    constructor
    · rintro rfl; simp
    · rintro ⟨_, h⟩; exact (List.map_eq_nil_iff.1 h.symm).symm
  | r :: rs, rs' => by
    constructor
    · intro h
      unfold convertOffs at h
      split at h
      · next o t h1 h2 =>
        obtain ⟨p1, p2⟩ := (toInsnOff_iff ..).1 h1
        obtain ⟨q1, q2⟩ := (convertOffs_iff ..).1 h2
        injection h with h; subst h
        refine ⟨?_, ?_⟩
        · intro x hx
          rcases List.mem_cons.1 hx with rfl | hx
          · exact p1
          · exact q1 x hx
        · simp only [List.map_cons, List.cons.injEq]
          refine ⟨?_, q2⟩
          obtain ⟨a, b, c, d⟩ := r
          simp only at p2; subst p2; rfl
      · cases h
    · rintro ⟨h1, h2⟩
      cases rs' with
      | nil => simp at h2
      | cons x xs =>
        simp only [List.map_cons, List.cons.injEq] at h2
        obtain ⟨rfl, rfl⟩ := h2
        have := (convertOffs_iff (xs.map fun r => { r with insnOff := r.insnOff * 8 }) xs).2 ⟨fun r hr => h1 r (by simp [hr]), rfl⟩
        have h3 := (toInsnOff_iff (x.insnOff * 8) x.insnOff).2 ⟨h1 x (by simp), rfl⟩
        simp only [convertOffs, h3, this]

theorem readLineRecs_exact (bo : ByteOrder) : ExactParser (readLineRecs bo true) (encLineRec bo) (fun r => OffFits r.insnOff) := by
  intro n bs rs rest
  have em : ∀ rs : List LineRec, ((rs.map fun r => ({ r with insnOff := r.insnOff * 8 } : LineRec)).map fun r => enc4 bo r.insnOff r.fileOff r.lineOff r.lineCol)
      = rs.map (encLineRec bo) := by
    intro rs; rw [List.map_map]; rfl
  constructor
  · intro h
    unfold readLineRecs at h
    rw [readLineChunks_eq bo n n bs (Nat.le_refl _)] at h
    split at h
    · cases h
    · next rs1 bs1 h1 =>
      split at h
      · cases h
      · next rs2 h2 =>
        simp only [Option.some.injEq, Prod.mk.injEq] at h
        obtain ⟨rfl, rfl⟩ := h
        obtain ⟨q1, -, q3⟩ := (readLines_exact bo ..).1 h1
        obtain ⟨r1, rfl⟩ := (convertOffs_iff ..).1 h2
        refine ⟨by simpa using q1, r1, ?_⟩
        rw [q3, em]
  · rintro ⟨h1, h2, rfl⟩
    unfold readLineRecs
    rw [readLineChunks_eq bo n n _ (Nat.le_refl _), ← em,
      (readLines_exact bo n _ (rs.map fun r => ({ r with insnOff := r.insnOff * 8 } : LineRec)) rest).2 ⟨by simpa using h1, fun _ _ => trivial, rfl⟩]
    simp only [(convertOffs_iff _ rs).2 ⟨h2, rfl⟩]

/-! ## Sections -/

theorem encSec_length {α : Type} (bo : ByteOrder) (enc : α → Bytes) (s : BitVec 32 × List α) :
    (encSec bo enc s).length = 8 + (s.2.map enc).flatten.length := by
  simp only [encSec, List.length_append, put32_length]

theorem readSections_exact {α : Type} (bo : ByteOrder) (look : BitVec 32 → Option Bytes) (parse : Nat → Bytes → Option (List α × Bytes))
    (enc : α → Bytes) (ok : α → Prop) (hp : ExactParser parse enc ok) : ∀ (k : Nat) (bs : Bytes) (out : List (Bytes × List α)), bs.length < k →
    (readSections bo look parse k bs = some out ↔ ∃ ss, bs = (ss.map (encSec bo enc)).flatten ∧ Decodes look ok ss out)
  | 0, bs, out, h => by omega
  | k + 1, bs, out, hk => by
    constructor
    · intro h
      unfold readSections at h
      split at h
      · next h0 =>
        injection h with h; subst h
        exact ⟨[], by simp [h0], .nil⟩
      · split at h
        · cases h
        · next off num bs1 h1 =>
          split at h
          · cases h
          · next name hn =>
            split at h
            · cases h
            · next hne =>
              split at h
              · cases h
              · next hnum =>
                split at h
                · cases h
                · next rs bs2 h2 =>
                  split at h
                  · cases h
                  · next ss' h3 =>
                    injection h with h; subst h
                    have e1 := (read2_iff ..).1 h1
                    obtain ⟨p1, p2, p3⟩ := (hp ..).1 h2
                    have hl : bs2.length < k := by
                      rw [e1, p3] at hk
                      simp only [List.length_append, put32_length] at hk
                      omega
                    obtain ⟨ss, s1, s2⟩ := (readSections_exact bo look parse enc ok hp k bs2 ss' hl).1 h3
                    refine ⟨(off, rs) :: ss, ?_, .cons hn hne ?_ ?_ p2 s2⟩
                    · rw [e1, p3, s1]
                      have : BitVec.ofNat 32 rs.length = num := by rw [p1]; simp
                      simp [encSec, this]
                    · rintro rfl
                      apply hnum
                      apply BitVec.eq_of_toNat_eq
                      rw [← p1]; rfl
                    · rw [p1]; exact num.isLt
    · rintro ⟨ss, rfl, h⟩
      cases h with
      | nil => simp [readSections]
      | @cons off name rs ss out' h1 h2 h3 h4 h5 h6 =>
        have hl : (BitVec.ofNat 32 rs.length).toNat = rs.length := by simp; omega
        have hp0 : rs.length ≠ 0 := by intro h; exact h3 (List.length_eq_zero_iff.1 h)
        have hz : ¬ BitVec.ofNat 32 rs.length = 0 := by
          intro h
          rw [h] at hl
          simp at hl; omega
        have hr := (hp rs.length ((rs.map enc).flatten ++ (ss.map (encSec bo enc)).flatten) rs (ss.map (encSec bo enc)).flatten).2 ⟨rfl, h5, rfl⟩
        simp only [List.map_cons, List.flatten_cons, List.length_append, encSec_length] at hk
        have ih := (readSections_exact bo look parse enc ok hp k (ss.map (encSec bo enc)).flatten out' (by omega)).2 ⟨ss, rfl, h6⟩
        unfold readSections
        have hnil : ¬ ((((off, rs) :: ss).map (encSec bo enc)).flatten = []) := by
          intro h
          have := congrArg List.length h
          simp only [List.map_cons, List.flatten_cons, List.length_append, encSec_length, List.length_nil] at this
          omega
        rw [if_neg hnil]
        have he : (((off, rs) :: ss).map (encSec bo enc)).flatten = bo.put32 off ++ (bo.put32 (BitVec.ofNat 32 rs.length) ++
            ((rs.map enc).flatten ++ (ss.map (encSec bo enc)).flatten)) := by simp [encSec]
        rw [he, read2_enc]
        simp only [h1]
        rw [if_neg h2, if_neg hz, hl, hr]
        simp only [ih]

/-! ## Parts -/

theorem readRecordSize_iff (bo : ByteOrder) (bs r : Bytes) (n : BitVec 32) :
    readRecordSize bo bs = some (n, r) ↔ bs = bo.put32 n ++ r ∧ 4 ≤ n.toNat ∧ n.toNat ≤ 256 := by
  unfold readRecordSize
  constructor
  · intro h
    split at h
    · cases h
    · next m bs1 h1 =>
      split at h
      · cases h
      · next h2 =>
        split at h
        · cases h
        · next h3 =>
          simp only [Option.some.injEq, Prod.mk.injEq] at h
          obtain ⟨rfl, rfl⟩ := h
          simp only [BitVec.lt_def, gt_iff_lt] at h2 h3
          refine ⟨(get32l_iff ..).1 h1, ?_, ?_⟩
          · simp at h2; exact h2
          · simp at h3; exact h3
  · rintro ⟨rfl, h1, h2⟩
    rw [get32l_put32]
    simp only
    rw [if_neg (by simp [BitVec.lt_def]; omega), if_neg (by simp [BitVec.lt_def]; omega)]

/-- Func and line infos check the record size in each section. -/
theorem part_exact {α : Type} (bo : ByteOrder) (look : BitVec 32 → Option Bytes) (parse : Nat → Bytes → Option (List α × Bytes))
    (enc : α → Bytes) (ok : α → Prop) (hp : ExactParser parse enc ok) (size : BitVec 32) (hs : 4 ≤ size.toNat ∧ size.toNat ≤ 256) (bs : Bytes)
    (out : List (Bytes × List α)) :
    (match readRecordSize bo bs with
      | none => none
      | some (n, bs) => readSections bo look (fun num bs => if n ≠ size then none else parse num bs) (bs.length + 1) bs) = some out ↔
    IsPart bo look size enc ok bs out := by
  have eqp : (fun num bs => if size ≠ size then none else parse num bs) = parse := by funext a b; simp
  constructor
  · intro h
    split at h
    · cases h
    · next n bs1 h1 =>
      obtain ⟨rfl, r1, r2⟩ := (readRecordSize_iff ..).1 h1
      by_cases hn : n = size
      · subst hn
        rw [eqp] at h
        obtain ⟨ss, rfl, d⟩ := (readSections_exact bo look parse enc ok hp _ _ _ (by omega)).1 h
        exact .inl ⟨ss, rfl, d⟩
      · unfold readSections at h
        split at h
        · next h0 =>
          injection h with h
          exact .inr ⟨h.symm, n, r1, r2, by rw [h0, List.append_nil]⟩
        · split at h
          · cases h
          · split at h
            · cases h
            · split at h
              · cases h
              · split at h
                · cases h
                · cases h
  · rintro (⟨ss, rfl, d⟩ | ⟨rfl, n, n1, n2, rfl⟩)
    · rw [encPart, (readRecordSize_iff bo _ _ size).2 ⟨rfl, hs.1, hs.2⟩]
      simp only [eqp]
      exact (readSections_exact bo look parse enc ok hp _ _ _ (by omega)).2 ⟨ss, rfl, d⟩
    · rw [(readRecordSize_iff bo _ [] n).2 ⟨by simp, n1, n2⟩]
      simp [readSections]

theorem readFuncPart_iff (bo : ByteOrder) (look : BitVec 32 → Option Bytes) (bs : Bytes) (out : List (Bytes × List FuncRec)) :
    readFuncPart bo look bs = some out ↔ IsPart bo look 8 (encFuncRec bo) (fun r => OffFits r.insnOff) bs out :=
  part_exact bo look _ _ _ (readFuncRecs_exact bo) 8 (by decide) bs out

theorem readLinePart_iff (bo : ByteOrder) (look : BitVec 32 → Option Bytes) (bs : Bytes) (out : List (Bytes × List LineRec)) :
    readLinePart bo look bs = some out ↔ IsPart bo look 16 (encLineRec bo) (fun r => OffFits r.insnOff) bs out :=
  part_exact bo look _ _ _ (readLineRecs_exact bo) 16 (by decide) bs out

theorem readReloPart_iff (bo : ByteOrder) (look : BitVec 32 → Option Bytes) (bs : Bytes) (out : List (Bytes × List ReloRec)) :
    readReloPart bo look bs = some out ↔
    ∃ ss, bs = encPart bo 16 (encReloRec bo) ss ∧ Decodes look (fun r => OffFits r.insnOff) ss out := by
  unfold readReloPart
  constructor
  · intro h
    split at h
    · cases h
    · next n bs1 h1 =>
      obtain ⟨rfl, r1, r2⟩ := (readRecordSize_iff ..).1 h1
      split at h
      · cases h
      · next hn =>
        simp only [ne_eq, Decidable.not_not] at hn
        subst hn
        obtain ⟨ss, rfl, d⟩ := (readSections_exact bo look _ _ _ (readReloRecs_exact bo) _ _ _ (by omega)).1 h
        exact ⟨ss, rfl, d⟩
  · rintro ⟨ss, rfl, d⟩
    rw [encPart, (readRecordSize_iff bo _ _ 16).2 ⟨rfl, by decide, by decide⟩]
    simp only
    rw [if_neg (by simp)]
    exact (readSections_exact bo look _ _ _ (readReloRecs_exact bo) _ _ _ (by omega)).2 ⟨ss, rfl, d⟩

/-! ## The section -/

theorem readExtHeader_iff (bo : ByteOrder) (bs rest : Bytes) (h : ExtHeader) : readExtHeader bo bs = some (h, rest) ↔
    bs = bo.put16 0xeB9F ++ [1, 0] ++ bo.put32 h.hdrLen ++ enc4 bo h.funcOff h.funcLen h.lineOff h.lineLen ++ rest ∧ 24 ≤ h.hdrLen.toNat := by
  constructor
  · intro hh
    match bs, hh with
    | m0 :: m1 :: ver :: flags :: bs, hh =>
      simp only [readExtHeader] at hh
      split at hh
      · cases hh
      · next hl bs1 h1 =>
        split at hh
        · cases hh
        · next a b c d bs2 h2 =>
          split at hh
          · cases hh
          · next g1 =>
            split at hh
            · cases hh
            · next g2 =>
              split at hh
              · cases hh
              · next g3 =>
                split at hh
                · cases hh
                · next g4 =>
                  simp only [Option.some.injEq, Prod.mk.injEq] at hh
                  obtain ⟨rfl, rfl⟩ := hh
                  simp only [ne_eq, Decidable.not_not] at g1 g2 g3
                  refine ⟨?_, by simp only; omega⟩
                  simp only
                  rw [← g1, put16_get16, g2, g3, (get32l_iff ..).1 h1, (read4_iff ..).1 h2]
                  simp
  · rintro ⟨rfl, h24⟩
    obtain ⟨m0, m1, e1, e2⟩ : ∃ m0 m1, bo.put16 0xeB9F = [m0, m1] ∧ bo.get16 m0 m1 = 0xeB9F := by
      cases bo <;> exact ⟨_, _, rfl, by decide⟩
    rw [e1]
    simp only [List.cons_append, List.nil_append, List.append_assoc, readExtHeader, get32l_put32, read4_enc]
    rw [if_neg (by simp [e2]), if_neg (by simp), if_neg (by simp), if_neg (by omega)]

/-- C59: which byte strings are accepted, and what they mean. The header is always taken to be at least 32 bytes long. -/
theorem ext_exact_partial (bo : ByteOrder) (look : BitVec 32 → Option Bytes) (bs : Bytes) (x : ExtRecords) : loadExtInfos bo look bs = some x ↔
    ∃ (hl fo fl lo ll co cl : BitVec 32) (rest : Bytes),
      bs = bo.put16 0xeB9F ++ [1, 0] ++ bo.put32 hl ++ enc4 bo fo fl lo ll ++ (bo.put32 co ++ (bo.put32 cl ++ rest)) ∧ 24 ≤ hl.toNat ∧
      IsPart bo look 8 (encFuncRec bo) (fun r => OffFits r.insnOff) (slice bs (hl + fo).toNat fl.toNat) x.funcs ∧
      IsPart bo look 16 (encLineRec bo) (fun r => OffFits r.insnOff) (slice bs (hl + lo).toNat ll.toNat) x.lines ∧
      (cl = 0 ∧ x.relos = [] ∨ cl ≠ 0 ∧ ∃ ss, slice bs (hl + co).toNat cl.toNat = encPart bo 16 (encReloRec bo) ss ∧
        Decodes look (fun r => OffFits r.insnOff) ss x.relos) := by
  constructor
  · intro h
    unfold loadExtInfos at h
    split at h
    · cases h
    · next hd rest h1 =>
      obtain ⟨e1, e2⟩ := (readExtHeader_iff ..).1 h1
      split at h
      · cases h
      · next core h2 =>
        split at h
        · cases h
        · next funcs h3 =>
          split at h
          · cases h
          · next lines h4 =>
            simp only [readCoreHeader] at h2
            rw [if_neg (by omega)] at h2
            split at h2
            · cases h2
            · next c r2 h5 =>
              obtain ⟨co, cl⟩ := c
              injection h2 with h2; subst h2
              simp only at h
              rw [(read2_iff ..).1 h5] at e1
              refine ⟨hd.hdrLen, hd.funcOff, hd.funcLen, hd.lineOff, hd.lineLen, co, cl, r2, e1, e2, ?_⟩
              rw [readFuncPart_iff] at h3
              rw [readLinePart_iff] at h4
              split at h
              · next hc =>
                injection h with h; subst h
                exact ⟨h3, h4, .inl ⟨hc, rfl⟩⟩
              · next hc =>
                split at h
                · cases h
                · next relos h6 =>
                  injection h with h; subst h
                  exact ⟨h3, h4, .inr ⟨hc, (readReloPart_iff ..).1 h6⟩⟩
  · rintro ⟨hl, fo, fl, lo, ll, co, cl, rest, e1, e2, h3, h4, h5⟩
    have h1 := (readExtHeader_iff bo bs _ ⟨hl, fo, fl, lo, ll⟩).2 ⟨e1, e2⟩
    unfold loadExtInfos
    rw [h1]
    simp only [readCoreHeader]
    rw [if_neg (by omega), read2_enc]
    simp only
    rw [show part bs (hl + fo) fl = slice bs (hl + fo).toNat fl.toNat from rfl, (readFuncPart_iff ..).2 h3]
    simp only
    rw [show part bs (hl + lo) ll = slice bs (hl + lo).toNat ll.toNat from rfl, (readLinePart_iff ..).2 h4]
    simp only
    obtain ⟨F, L, C⟩ := x
    rcases h5 with ⟨c0, c1⟩ | ⟨c0, c1⟩
    · rw [if_pos c0]; simp only at c1; rw [c1]
    · rw [if_neg c0, show part bs (hl + co) cl = slice bs (hl + co).toNat cl.toNat from rfl, (readReloPart_iff ..).2 c1]

theorem enc4_length (bo : ByteOrder) (a b c d : BitVec 32) : (enc4 bo a b c d).length = 16 := by
  simp only [enc4, List.length_append, put32_length]

theorem put16_length (bo : ByteOrder) (x : BitVec 16) : (bo.put16 x).length = 2 := by cases bo <;> rfl

theorem slice_mid (a b c : Bytes) (m n : Nat) (hm : m = a.length) (hn : n = b.length) : slice (a ++ (b ++ c)) m n = b := by
  subst hm; subst hn
  unfold slice
  rw [List.drop_left, List.take_left]

/-- C59: a section laid out as the format says is read as what it says. -/
theorem ext_decodes (bo : ByteOrder) (look : BitVec 32 → Option Bytes) (fs : List (BitVec 32 × List FuncRec)) (ls : List (BitVec 32 × List LineRec))
    (cs : List (BitVec 32 × List ReloRec)) (F : List (Bytes × List FuncRec)) (L : List (Bytes × List LineRec)) (C : List (Bytes × List ReloRec))
    (hF : Decodes look (fun r => OffFits r.insnOff) fs F) (hL : Decodes look (fun r => OffFits r.insnOff) ls L)
    (hC : Decodes look (fun r => OffFits r.insnOff) cs C) (f l c : Bytes) (hf : f = encPart bo 8 (encFuncRec bo) fs)
    (hl : l = encPart bo 16 (encLineRec bo) ls) (hc : c = encPart bo 16 (encReloRec bo) cs) (hlen : 32 + f.length + l.length + c.length < 2 ^ 32) :
    loadExtInfos bo look (encExt bo f l c) = some ⟨F, L, C⟩ := by
  have hcpos : c.length ≠ 0 := by rw [hc, encPart, List.length_append, put32_length]; omega
  apply (ext_exact_partial ..).2
  refine ⟨32, 0, BitVec.ofNat 32 f.length, BitVec.ofNat 32 f.length, BitVec.ofNat 32 l.length, BitVec.ofNat 32 (f.length + l.length),
    BitVec.ofNat 32 c.length, f ++ (l ++ c), by simp [encExt], by decide, .inl ⟨fs, ?_, hF⟩, .inl ⟨ls, ?_, hL⟩, .inr ⟨?_, cs, ?_, hC⟩⟩
  · rw [← hf]
    rw [show encExt bo f l c = (bo.put16 0xeB9F ++ [1, 0] ++ bo.put32 32 ++ enc4 bo 0 (BitVec.ofNat 32 f.length) (BitVec.ofNat 32 f.length)
      (BitVec.ofNat 32 l.length) ++ bo.put32 (BitVec.ofNat 32 (f.length + l.length)) ++ bo.put32 (BitVec.ofNat 32 c.length)) ++ (f ++ (l ++ c)) by simp [encExt]]
    apply slice_mid
    · simp [put32_length, put16_length, enc4_length]
    · simp; omega
  · rw [← hl]
    rw [show encExt bo f l c = (bo.put16 0xeB9F ++ [1, 0] ++ bo.put32 32 ++ enc4 bo 0 (BitVec.ofNat 32 f.length) (BitVec.ofNat 32 f.length)
      (BitVec.ofNat 32 l.length) ++ bo.put32 (BitVec.ofNat 32 (f.length + l.length)) ++ bo.put32 (BitVec.ofNat 32 c.length) ++ f) ++ (l ++ c) by simp [encExt]]
    apply slice_mid
    · simp [put32_length, put16_length, enc4_length]; omega
    · simp; omega
  · intro h
    have := congrArg BitVec.toNat h
    simp at this; omega
  · rw [← hc]
    rw [show encExt bo f l c = (bo.put16 0xeB9F ++ [1, 0] ++ bo.put32 32 ++ enc4 bo 0 (BitVec.ofNat 32 f.length) (BitVec.ofNat 32 f.length)
      (BitVec.ofNat 32 l.length) ++ bo.put32 (BitVec.ofNat 32 (f.length + l.length)) ++ bo.put32 (BitVec.ofNat 32 c.length) ++ f ++ l) ++ (c ++ []) by simp [encExt]]
    apply slice_mid
    · simp [put32_length, put16_length, enc4_length]; omega
    · simp; omega

/-- C59: the same without CO-RE relocations, in a 32 byte header. -/
theorem ext_decodes_no_relos (bo : ByteOrder) (look : BitVec 32 → Option Bytes) (fs : List (BitVec 32 × List FuncRec)) (ls : List (BitVec 32 × List LineRec))
    (F : List (Bytes × List FuncRec)) (L : List (Bytes × List LineRec))
    (hF : Decodes look (fun r => OffFits r.insnOff) fs F) (hL : Decodes look (fun r => OffFits r.insnOff) ls L)
    (f l : Bytes) (hf : f = encPart bo 8 (encFuncRec bo) fs) (hl : l = encPart bo 16 (encLineRec bo) ls) (hlen : 32 + f.length + l.length < 2 ^ 32) :
    loadExtInfos bo look (encExt bo f l []) = some ⟨F, L, []⟩ := by
  apply (ext_exact_partial ..).2
  refine ⟨32, 0, BitVec.ofNat 32 f.length, BitVec.ofNat 32 f.length, BitVec.ofNat 32 l.length, BitVec.ofNat 32 (f.length + l.length),
    0, f ++ l, by simp [encExt], by decide, .inl ⟨fs, ?_, hF⟩, .inl ⟨ls, ?_, hL⟩, .inl ⟨rfl, rfl⟩⟩
  · rw [← hf]
    rw [show encExt bo f l [] = (bo.put16 0xeB9F ++ [1, 0] ++ bo.put32 32 ++ enc4 bo 0 (BitVec.ofNat 32 f.length) (BitVec.ofNat 32 f.length)
      (BitVec.ofNat 32 l.length) ++ bo.put32 (BitVec.ofNat 32 (f.length + l.length)) ++ bo.put32 (BitVec.ofNat 32 0)) ++ (f ++ l) by simp [encExt]]
    apply slice_mid
    · simp [put32_length, put16_length, enc4_length]
    · simp; omega
  · rw [← hl]
    rw [show encExt bo f l [] = (bo.put16 0xeB9F ++ [1, 0] ++ bo.put32 32 ++ enc4 bo 0 (BitVec.ofNat 32 f.length) (BitVec.ofNat 32 f.length)
      (BitVec.ofNat 32 l.length) ++ bo.put32 (BitVec.ofNat 32 (f.length + l.length)) ++ bo.put32 (BitVec.ofNat 32 0) ++ f) ++ (l ++ []) by simp [encExt]]
    apply slice_mid
    · simp [put32_length, put16_length, enc4_length]; omega
    · simp; omega

/-- What C59 doesn't have: a section with the shorter header that was used before CO-RE isn't read. The record size and the name of the first
section of the func infos are taken for the CO-RE fields of the header, so that the number of records is taken for the size of a CO-RE
relocation. Unless it is 16, the section is rejected. -/
theorem ext_old_header_rejected (bo : ByteOrder) (look : BitVec 32 → Option Bytes) (h0 : look 0 = some []) (off : BitVec 32) (rs : List FuncRec)
    (fs : List (BitVec 32 × List FuncRec)) (ls : List (BitVec 32 × List LineRec)) (F : List (Bytes × List FuncRec))
    (hF : Decodes look (fun r => OffFits r.insnOff) ((off, rs) :: fs) F) (h16 : rs.length ≠ 16) (f l : Bytes)
    (hf : f = encPart bo 8 (encFuncRec bo) ((off, rs) :: fs)) (hl : l = encPart bo 16 (encLineRec bo) ls) :
    loadExtInfos bo look (encExtOld bo f l) = none := by
  have hoff : off ≠ 0 := by
    rintro rfl
    cases hF with
    | cons a b => rw [h0] at a; injection a with a; exact b a.symm
  have hrs : rs.length < 2 ^ 32 := by cases hF; assumption
  cases hx : loadExtInfos bo look (encExtOld bo f l) with
  | none => rfl
  | some x =>
    exfalso
    obtain ⟨hl', fo, fl, lo, ll, co, cl, rest, e1, e2, h3, h4, h5⟩ := (ext_exact_partial ..).1 hx
    have eo : encExtOld bo f l = bo.put16 0xeB9F ++ [1, 0] ++ bo.put32 24 ++ enc4 bo 0 (BitVec.ofNat 32 f.length) (BitVec.ofNat 32 f.length)
        (BitVec.ofNat 32 l.length) ++ (bo.put32 8 ++ (bo.put32 off ++ (bo.put32 (BitVec.ofNat 32 rs.length) ++ ((rs.map (encFuncRec bo)).flatten ++
          ((fs.map (encSec bo (encFuncRec bo))).flatten ++ l))))) := by
      simp [encExtOld, hf, encPart, encSec]
    have w1 := (readExtHeader_iff bo (encExtOld bo f l) _ ⟨24, 0, BitVec.ofNat 32 f.length, BitVec.ofNat 32 f.length, BitVec.ofNat 32 l.length⟩).2 ⟨eo, by show 24 ≤ (24 : BitVec 32).toNat; decide⟩
    have w2 := (readExtHeader_iff bo (encExtOld bo f l) _ ⟨hl', fo, fl, lo, ll⟩).2 ⟨e1, e2⟩
    rw [w1] at w2
    simp only [Option.some.injEq, Prod.mk.injEq, ExtHeader.mk.injEq] at w2
    obtain ⟨⟨rfl, -⟩, w3⟩ := w2
    have w4 := read2_enc bo 8 off (bo.put32 (BitVec.ofNat 32 rs.length) ++ ((rs.map (encFuncRec bo)).flatten ++ ((fs.map (encSec bo (encFuncRec bo))).flatten ++ l)))
    rw [w3, read2_enc] at w4
    simp only [Option.some.injEq, Prod.mk.injEq] at w4
    obtain ⟨⟨rfl, rfl⟩, -⟩ := w4
    rcases h5 with ⟨c, -⟩ | ⟨-, ss, h6, h7⟩
    · exact hoff c
    · have : ∃ t, slice (encExtOld bo f l) (24 + 8 : BitVec 32).toNat cl.toNat = (bo.put32 (BitVec.ofNat 32 rs.length) ++ t).take cl.toNat := by
        refine ⟨((rs.map (encFuncRec bo)).flatten ++ ((fs.map (encSec bo (encFuncRec bo))).flatten ++ l)), ?_⟩
        unfold slice
        rw [show (24 + 8 : BitVec 32).toNat = 32 by decide, eo]
        have : 32 = (bo.put16 0xeB9F ++ [1, 0] ++ bo.put32 24 ++ enc4 bo 0 (BitVec.ofNat 32 f.length) (BitVec.ofNat 32 f.length)
          (BitVec.ofNat 32 l.length) ++ bo.put32 8 ++ bo.put32 cl).length := by simp [put32_length, put16_length, enc4_length]
        have hd : ∀ (n : Nat) (a b : Bytes), n = a.length → (a ++ b).drop n = b := by intro n a b h; rw [h, List.drop_left]
        rw [show ∀ a b c d : Bytes, a ++ (b ++ (c ++ d)) = (a ++ b ++ c) ++ d by intros; simp, hd 32 _ _ this]
      obtain ⟨t, ht⟩ := this
      rw [ht, encPart] at h6
      have g4 : 4 ≤ cl.toNat := by
        have := congrArg List.length h6
        simp only [List.length_take, List.length_append, put32_length] at this
        omega
      have h8 := congrArg (List.take 4) h6
      rw [List.take_take, Nat.min_eq_left g4] at h8
      rw [← put32_length bo (BitVec.ofNat 32 rs.length), List.take_left, put32_length, ← put32_length bo 16, List.take_left] at h8
      have g1 := get32l_put32 bo (BitVec.ofNat 32 rs.length) []
      rw [h8, get32l_put32] at g1
      simp only [Option.some.injEq, Prod.mk.injEq, and_true] at g1
      have := congrArg BitVec.toNat g1
      simp at this
      omega

/-- The sections of one name: the last one hides the others. -/
theorem sectionOf_last {α : Type} (name : Bytes) (a b : List (Bytes × List α)) (rs : List α) (hb : ∀ s ∈ b, s.1 ≠ name) :
    sectionOf (a ++ (name, rs) :: b) name = rs := by
  unfold sectionOf
  have : List.lookup name b.reverse = none := by
    rw [List.lookup_eq_none_iff]
    intro p hp
    simp only [List.mem_reverse] at hp
    simpa using fun h => hb p hp h.symm
  rw [List.reverse_append, List.reverse_cons, List.append_assoc, List.lookup_append, this]
  simp

/-- Two sections named `a`: the functions of the first one are lost. -/
example : loadExtInfos .little (fun o => if o = 1 then some (lit "a") else some []) (encExt .little
      (encPart .little 8 (encFuncRec .little) [(1, [⟨0, 7⟩]), (1, [⟨3, 9⟩, ⟨5, 4⟩])]) (encPart .little 16 (encLineRec .little) [])
      (encPart .little 16 (encReloRec .little) [(1, [⟨2, 7, 1, 3⟩])])) =
    some ⟨[(lit "a", [⟨0, 7⟩]), (lit "a", [⟨3, 9⟩, ⟨5, 4⟩])], [], [(lit "a", [⟨2, 7, 1, 3⟩])]⟩ ∧
    sectionOf [(lit "a", [(⟨0, 7⟩ : FuncRec)]), (lit "a", [⟨3, 9⟩, ⟨5, 4⟩])] (lit "a") = [⟨3, 9⟩, ⟨5, 4⟩] := by
  refine ⟨?_, by decide⟩
  apply ext_decodes (fs := [(1, [⟨0, 7⟩]), (1, [⟨3, 9⟩, ⟨5, 4⟩])]) (ls := []) (cs := [(1, [⟨2, 7, 1, 3⟩])]) (hf := rfl) (hl := rfl) (hc := rfl)
  · exact .cons rfl (by decide) (by decide) (by decide) (by simp [OffFits]) (.cons rfl (by decide) (by decide) (by decide) (by simp [OffFits]) .nil)
  · exact .nil
  · exact .cons rfl (by decide) (by decide) (by decide) (by simp [OffFits]) .nil
  · decide

/-- The hypotheses of `ext_old_header_rejected` are met by a section with one function. -/
example : loadExtInfos .little (fun o => if o = 1 then some (lit "a") else some []) (encExtOld .little
      (encPart .little 8 (encFuncRec .little) [(1, [⟨0, 7⟩])]) (encPart .little 16 (encLineRec .little) [])) = none := by
  apply ext_old_header_rejected (off := 1) (rs := [⟨0, 7⟩]) (fs := []) (ls := []) (F := [(lit "a", [⟨0, 7⟩])]) (hf := rfl) (hl := rfl)
  · rfl
  · exact .cons rfl (by decide) (by decide) (by decide) (by simp [OffFits]) .nil
  · decide

/-! ## Accessors -/

theorem splitColon_join (cur s : Bytes) : joinColon (splitColon cur s) = cur.reverse ++ s ∧ splitColon cur s ≠ [] := by
  induction s generalizing cur with
  | nil => simp [splitColon, joinColon]
  | cons c s ih =>
    unfold splitColon
    split
    · next h =>
      subst h
      refine ⟨?_, by simp⟩
      have := ih []
      cases hs : splitColon [] s with
      | nil => exact absurd hs this.2
      | cons x xs =>
        rw [hs] at this
        simp only [joinColon, this.1]
        simp
    · refine ⟨?_, (ih _).2⟩
      rw [(ih _).1]; simp

theorem splitColon_no_colon (cur s : Bytes) (hc : (0x3a : Byte) ∉ cur) : ∀ p ∈ splitColon cur s, (0x3a : Byte) ∉ p := by
  induction s generalizing cur with
  | nil => simpa [splitColon] using hc
  | cons c s ih =>
    unfold splitColon
    split
    · intro p hp
      rcases List.mem_cons.1 hp with rfl | hp
      · simpa using hc
      · exact ih [] (by simp) p hp
    · next h => exact ih (c :: cur) (by simp only [List.mem_cons, not_or]; exact ⟨fun h' => h h'.symm, hc⟩)

theorem splitColon_append (cur s t : Bytes) (hs : (0x3a : Byte) ∉ s) : splitColon cur (s ++ t) = splitColon (s.reverse ++ cur) t := by
  induction s generalizing cur with
  | nil => rfl
  | cons c s ih =>
    simp only [List.mem_cons, not_or] at hs
    rw [List.cons_append, splitColon, if_neg (fun h => hs.1 h.symm), ih _ hs.2]
    simp

theorem splitColon_of_join : ∀ (ps : List Bytes), ps ≠ [] → (∀ p ∈ ps, (0x3a : Byte) ∉ p) → splitColon [] (joinColon ps) = ps
  | [], h, _ => absurd rfl h
  | [p], _, h => by
    have := splitColon_append [] p [] (h p (by simp))
    simp only [List.append_nil] at this
    rw [joinColon, this]; simp [splitColon]
  | p :: q :: ps, _, h => by
    rw [joinColon, splitColon_append [] p _ (h p (by simp)), splitColon, if_pos rfl, splitColon_of_join (q :: ps) (by simp) (fun x hx => h x (by simp [hx]))]
    · simp
    · simp

theorem foldl_ge : ∀ (s : Bytes) (a : Nat), a ≤ s.foldl (fun a c => a * 10 + (c.toNat - 0x30)) a
  | [], a => Nat.le_refl _
  | c :: s, a => by
    have := foldl_ge s (a * 10 + (c.toNat - 0x30))
    simp only [List.foldl_cons]
    omega

theorem parseDec_iff : ∀ (s : Bytes) (a n : Nat), a < 2 ^ 31 → (parseDec a s = some n ↔
    (∀ c ∈ s, 0x30 ≤ c.toNat ∧ c.toNat ≤ 0x39) ∧ n = s.foldl (fun a c => a * 10 + (c.toNat - 0x30)) a ∧ n < 2 ^ 31)
  | [], a, n, h => by
    simp only [parseDec, Option.some.injEq, List.foldl_nil]
    constructor
    · rintro rfl; simp [h]
    · rintro ⟨_, rfl, _⟩; rfl
  | c :: s, a, n, h => by
    unfold parseDec
    by_cases hd : 0x30 ≤ c.toNat ∧ c.toNat ≤ 0x39
    · rw [if_pos hd]
      by_cases hl : a * 10 + (c.toNat - 0x30) < 2 ^ 31
      · rw [if_pos hl, parseDec_iff s _ n hl]
        simp only [List.mem_cons, forall_eq_or_imp, List.foldl_cons, hd, true_and]
      · rw [if_neg hl]
        simp only [reduceCtorEq, false_iff]
        rintro ⟨_, h2, h3⟩
        simp only [List.foldl_cons] at h2
        have := foldl_ge s (a * 10 + (c.toNat - 0x30))
        omega
    · rw [if_neg hd]
      simp only [reduceCtorEq, false_iff]
      rintro ⟨h1, _⟩
      exact hd (h1 c (by simp))

theorem parseIndex_iff (s : Bytes) (n : Nat) : parseIndex s = some n ↔ IsDec s n ∧ n < 2 ^ 31 := by
  unfold parseIndex IsDec
  split
  · next h => simp [h]
  · next h => rw [parseDec_iff s 0 n (by decide)]; grind

theorem parseIndices_iff : ∀ (ps : List Bytes) (ns : List Nat), parseIndices ps = some ns ↔
    ∃ parts : List (Bytes × Nat), ps = parts.map (·.1) ∧ ns = parts.map (·.2) ∧ ∀ p ∈ parts, IsDec p.1 p.2 ∧ p.2 < 2 ^ 31
  | [], ns => by
    simp only [parseIndices, Option.some.injEq]
    constructor
    · rintro rfl; exact ⟨[], by simp⟩
    · rintro ⟨parts, h1, h2, _⟩
      rw [List.map_eq_nil_iff.1 h1.symm] at h2
      exact h2.symm
  | p :: ps, ns => by
    unfold parseIndices
    constructor
    · intro h
      split at h
      · next n t h1 h2 =>
        injection h with h; subst h
        obtain ⟨parts, q1, q2, q3⟩ := (parseIndices_iff ..).1 h2
        refine ⟨(p, n) :: parts, by simp [q1], by simp [q2], ?_⟩
        intro x hx
        rcases List.mem_cons.1 hx with rfl | hx
        · exact (parseIndex_iff ..).1 h1
        · exact q3 x hx
      · cases h
    · rintro ⟨parts, q1, q2, q3⟩
      cases parts with
      | nil => simp at q1
      | cons x parts =>
        simp only [List.map_cons, List.cons.injEq] at q1 q2
        obtain ⟨rfl, rfl⟩ := q1
        subst q2
        rw [(parseIndex_iff ..).2 (q3 x (by simp)), (parseIndices_iff ..).2 ⟨parts, rfl, rfl, fun p hp => q3 p (by simp [hp])⟩]

/-- C59: an accessor string is a list of decimal numbers below 2³¹, separated by colons, and nothing else. -/
theorem parseAccessor_iff (s : Bytes) (l : List Nat) : parseAccessor s = some l ↔
    l ≠ [] ∧ ∃ parts : List (Bytes × Nat), s = joinColon (parts.map (·.1)) ∧ l = parts.map (·.2) ∧ ∀ p ∈ parts, IsDec p.1 p.2 ∧ p.2 < 2 ^ 31 := by
  unfold parseAccessor
  constructor
  · intro h
    split at h
    · cases h
    · obtain ⟨parts, q1, q2, q3⟩ := (parseIndices_iff ..).1 h
      have h2 := splitColon_join [] s
      refine ⟨?_, parts, ?_, q2, q3⟩
      · rintro rfl
        rw [List.map_eq_nil_iff.1 q2.symm] at q1
        exact h2.2 q1
      · rw [← q1]; simpa using h2.1.symm
  · rintro ⟨h1, parts, rfl, rfl, h2⟩
    have hne : parts ≠ [] := by rintro rfl; exact h1 rfl
    have hcol : ∀ p ∈ parts.map (·.1), (0x3a : Byte) ∉ p := by
      intro p hpp hc
      obtain ⟨x, hx, rfl⟩ := List.mem_map.1 hpp
      have := (h2 x hx).1.2.1 _ hc
      simp at this
    rw [if_neg, splitColon_of_join _ (by simpa using hne) hcol]
    · exact (parseIndices_iff ..).2 ⟨parts, rfl, rfl, h2⟩
    · match parts, hne, h2 with
      | [p], _, h2 => exact (h2 p (by simp)).1.1
      | p :: q :: ps, _, _ =>
        intro h
        have h : p.1 ++ 0x3a :: joinColon (q.1 :: ps.map (·.1)) = [] := h
        simp at h

example : parseAccessor (lit "0:12:3") = some [0, 12, 3] := by decide
example : parseAccessor (lit "0::3") = none := by decide
example : parseAccessor (lit "0:2147483648") = none := by decide

end Ebpf.Btf

import Verif.Spec.Core
import Verif.Props.OpCode
/-!
# C32 and C33: applying CO-RE fix-ups, choosing a target
-/
namespace Ebpf.Core
open Ebpf.Asm Ebpf.Asm.OpCode Ebpf.CoreSpec

/-! ## Applying -/

theorem cls_eq_iff (op : OpCode) (n : Nat) (h : n < 8) : op.cls = BitVec.ofNat 8 n ↔ op.toNat % 8 = n := by
  rw [show op.toNat % 8 = op.cls.toNat from (cls_eq op).symm]
  constructor
  · intro e; rw [e, BitVec.toNat_ofNat]; omega
  · intro e; apply BitVec.eq_of_toNat_eq; rw [BitVec.toNat_ofNat]; omega

theorem and_mask (x s k : Nat) : x &&& ((2 ^ k - 1) <<< s) = (x >>> s % 2 ^ k) <<< s := by
  apply Nat.eq_of_testBit_eq
  intro i
  simp only [Nat.testBit_and, Nat.testBit_shiftLeft, Nat.testBit_mod_two_pow, Nat.testBit_shiftRight, Nat.testBit_two_pow_sub_one]
  by_cases h : s ≤ i
  · simp only [ge_iff_le, h, decide_true, Bool.true_and]
    rw [show s + (i - s) = i by omega, Bool.and_comm]
  · simp [h]

theorem swap_iff (op : OpCode) (h : clsIsALU op.cls = true) : op.aluOp = Swap ↔ op.toNat / 16 % 1024 = 0xd := by
  unfold aluOp
  rw [if_pos h]
  have e : (op &&& aluMask).toNat = op.toNat / 16 % 1024 * 16 := by
    rw [BitVec.toNat_and]
    have := and_mask op.toNat 4 10
    simp only [Nat.shiftRight_eq_div_pow, Nat.shiftLeft_eq] at this
    exact this
  constructor
  · intro h
    have := congrArg BitVec.toNat h
    rw [BitVec.toNat_setWidth, e] at this
    simp only [Swap, BitVec.toNat_ofNat, Nat.reducePow, Nat.reduceMod] at this
    omega
  · intro h
    apply BitVec.eq_of_toNat_eq
    rw [BitVec.toNat_setWidth, e]
    simp only [Swap, BitVec.toNat_ofNat, Nat.reducePow, Nat.reduceMod]
    omega

theorem source_iff (op : OpCode) (h : clsIsALU op.cls = true) :
    op.source = 0 ↔ op.toNat / 8 % 2 = 0 ∧ op.toNat / 16 % 1024 ≠ 0xd := by
  unfold OpCode.source
  have e : (op &&& sourceMask).toNat = op.toNat / 8 % 2 * 8 := by
    rw [BitVec.toNat_and]
    have := and_mask op.toNat 3 1
    simp only [Nat.shiftRight_eq_div_pow, Nat.shiftLeft_eq] at this
    exact this
  simp only [h, Bool.or_true, Bool.not_true, Bool.false_or, beq_iff_eq, swap_iff op h]
  by_cases hs : op.toNat / 16 % 1024 = 0xd
  · simp only [hs, if_true, ne_eq, not_true_eq_false, and_false, iff_false]
    decide
  · simp only [hs, if_false, ne_eq, not_false_iff, and_true]
    constructor
    · intro h
      have := congrArg BitVec.toNat h
      rw [BitVec.toNat_setWidth, e] at this
      replace this : op.toNat / 8 % 2 * 8 % 2 ^ 16 = 0 := this
      omega
    · intro h
      apply BitVec.eq_of_toNat_eq
      rw [BitVec.toNat_setWidth, e, h]
      rfl

theorem ldimm_cls : (0x18#32).toNat % 8 = 0 := by decide

/-- **C32.** Exactly when a fix-up that is not poisoned is accepted, and what it does. -/
theorem apply_exact (f : Fixup) (i j : CIns) (hp : f.poison = false) :
    apply f i = .ok j ↔ ∃ o, operand i.p.ins = some o ∧ j = setOperand o f.target i ∧
      (f.skipLocalValidation = true ∨ (o = .offset ∧ i.p.ins.off = f.loc.setWidth 16) ∨ (o = .imm ∧ i.p.ins.cons = f.loc)) ∧
      (o = .offset → f.target.toNat < 2 ^ 15) ∧ (o = .imm → i.p.ins.op ≠ 0x18 → f.target.toNat < 2 ^ 31) := by
  obtain ⟨⟨⟨op, dst, src, off, cons⟩, sym, ref, mp⟩, source, func⟩ := i
  have c0 := cls_eq_iff op 0 (by decide)
  have c1 := cls_eq_iff op 1 (by decide)
  have c2 := cls_eq_iff op 2 (by decide)
  have c3 := cls_eq_iff op 3 (by decide)
  have c4 := cls_eq_iff op 4 (by decide)
  have c7 := cls_eq_iff op 7 (by decide)
  have hsw := swap_iff op
  have hsrc := source_iff op
  rw [alu_iff] at hsw hsrc
  simp only [Ebpf.Spec.classOf] at hsw hsrc
  have h18 : op = 0x18 → op.toNat % 8 = 0 := by intro h; rw [h]; rfl
  unfold apply operand
  simp only [hp, Bool.false_eq_true, if_false, LdClass, LdXClass, StClass, StXClass, ALUClass, ALU64Class, c0, c1, c2, c3, c4, c7]
  clear c0 c1 c2 c3 c4 c7
  generalize op.toNat % 8 = c at *
  generalize op.toNat / 8 % 2 = q at *
  generalize op.toNat / 16 % 1024 = w at *
  have hT1 : f.target.toNat > 2 ^ 15 - 1 ↔ ¬ f.target.toNat < 2 ^ 15 := by omega
  have hT2 : f.target.toNat > 2 ^ 31 - 1 ↔ ¬ f.target.toNat < 2 ^ 31 := by omega
  simp only [hT1, hT2]
  constructor
  · intro h
    by_cases hc : c = 1 ∨ c = 2 ∨ c = 3
    · refine ⟨.offset, ?_⟩
      grind [setOperand]
    · refine ⟨.imm, ?_⟩
      grind [setOperand]
  · intro ⟨o, h1, h2, h3, h4, h5⟩
    cases o <;> grind [setOperand]

/-- The written value is the target value: the operand read back as a signed integer is `f.target`. -/
theorem apply_value (f : Fixup) (i j : CIns) (hp : f.poison = false) (h : apply f i = .ok j) :
    (operand i.p.ins = some .offset → j.p.ins.off.toInt = f.target.toNat ∧ j.p.ins.cons = i.p.ins.cons) ∧
    (operand i.p.ins = some .imm → j.p.ins.cons = f.target ∧ j.p.ins.off = i.p.ins.off ∧
      (i.p.ins.op ≠ 0x18 → (j.p.ins.cons.setWidth 32).toInt = f.target.toNat)) := by
  obtain ⟨o, h1, rfl, _, h4, h5⟩ := (apply_exact f i j hp).1 h
  rw [h1]
  constructor
  · intro ho; injection ho with ho; subst ho
    have := h4 rfl
    refine ⟨?_, rfl⟩
    show (f.target.setWidth 16).toInt = _
    rw [BitVec.toInt_setWidth, Int.bmod_def]
    omega
  · intro ho; injection ho with ho; subst ho
    refine ⟨rfl, rfl, fun hne => ?_⟩
    have := h5 rfl hne
    show (f.target.setWidth 32).toInt = _
    rw [BitVec.toInt_setWidth, Int.bmod_def]
    omega

/-- A poisoned relocation always succeeds; the instruction becomes illegal and keeps its width. -/
theorem apply_poison (f : Fixup) (i : CIns) (hp : f.poison = true) :
    ∃ j, apply f i = .ok j ∧ Illegal j.p.ins ∧ j.p.ins.width = i.p.ins.width := by
  unfold apply
  simp only [hp, if_true]
  unfold poisoned
  by_cases h : i.p.ins.op.isDWordLoad = true
  · refine ⟨_, by simp only [h, if_true]; rfl, .inl ⟨rfl, rfl⟩, ?_⟩
    simp only [Ins.width, OpCode.rawInstructions, h]; decide
  · refine ⟨_, by simp only [h]; rfl, .inr ⟨rfl, rfl, rfl, rfl⟩, ?_⟩
    simp only [Ins.width, OpCode.rawInstructions, h]; decide

/-- The illegal call survives encoding: it marshals to a call of helper 0xbad2310. -/
theorem poison_encodes : marshal Platform.Linux .little (poisoned false).p.ins = .ok [0x85, 0, 0, 0, 0x10, 0x23, 0xad, 0x0b] := by decide

/-- A failing fix-up leaves the instruction alone (errors return before anything is written): `apply` yields no instruction. The
only lossy case is poisoning, which drops all metadata: symbol, reference, map, function info, and, although the code means to
keep it, the source line. -/
theorem poison_drops_metadata (f : Fixup) (i j : CIns) (hp : f.poison = true) (h : apply f i = .ok j) :
    j.p.sym = "" ∧ j.p.ref = "" ∧ j.p.map = none ∧ j.func = none ∧ j.source = some "instruction poisoned by CO-RE" := by
  unfold apply at h
  simp only [hp, if_true] at h
  unfold poisoned at h
  split at h <;> grind

/-- What is missing of "only if its current value equals the local value": for loads and stores only 16 bits of the local
value are compared. -/
theorem local_offset_truncated : ∃ f i j, f.poison = false ∧ f.skipLocalValidation = false ∧ operand i.p.ins = some .offset ∧
    apply f i = .ok j ∧ i.p.ins.off.toInt ≠ f.loc.toInt :=
  ⟨⟨.byteOffset, 0x10008, 16, false, false⟩, ⟨⟨⟨0x79, 1, 2, 8, 0⟩, "", "", none⟩, none, none⟩, _, rfl, rfl, by decide, rfl, by decide⟩

/-- main calls `f`, the first instruction of which is a relocated load. -/
def callsF : List CIns :=
  [⟨⟨⟨0x85, 0, 1, 0, BitVec.allOnes 64⟩, "main", "f", none⟩, none, some "main"⟩, ⟨⟨⟨0x95, 0, 0, 0, 0⟩, "", "", none⟩, none, none⟩,
   ⟨⟨⟨0x79, 0, 1, 8, 0⟩, "f", "", none⟩, none, some "f"⟩, ⟨⟨⟨0x95, 0, 0, 0, 0⟩, "", "", none⟩, none, none⟩]

/-- Poisoning the first instruction of a function which is called makes the whole program impossible to load, even if the
call can't be reached: the symbol is lost with the metadata. -/
theorem poison_breaks_calls :
    (∃ w, marshalProgram Platform.Linux .little (callsF.map (·.p)) = .ok w) ∧
    ∃ j, apply ⟨.byteOffset, 0, 0, true, false⟩ (callsF[2]) = .ok j ∧
      marshalProgram Platform.Linux .little ((callsF.set 2 j).map (·.p)) = .error .unsatisfiedReference :=
  ⟨⟨_, rfl⟩, _, rfl, by decide⟩

/-! ## Choosing a target -/

theorem bad_eq (f : Fixup) : (f.poison || f.isNonExistant) = Bad f := by
  unfold Bad Fixup.isNonExistant
  congr 1; congr 1
  cases f.kind <;> rfl

variable {E R T : Type}

theorem candidate_ok (compute : R → T → Except E Fixup) (t : T) : ∀ (relos : List R) (n : Nat) (fs : List Fixup),
    candidate compute t relos = .ok (n, fs) ↔ Fixes compute relos t fs ∧ n = badness fs
  | [], n, fs => by
    simp only [candidate, Except.ok.injEq, Prod.mk.injEq, Fixes, List.map_nil]
    constructor
    · rintro ⟨rfl, rfl⟩; exact ⟨rfl, rfl⟩
    · rintro ⟨h, rfl⟩
      have : fs = [] := by cases fs <;> simp_all
      subst this; exact ⟨rfl, rfl⟩
  | r :: rs, n, fs => by
    have ih := candidate_ok compute t rs
    unfold candidate Fixes
    cases hc : compute r t with
    | error e => cases fs <;> simp [hc]
    | ok f =>
      simp only
      cases hr : candidate compute t rs with
      | error e =>
        simp only [reduceCtorEq, List.map_cons, hc, false_iff]
        rintro ⟨h, _⟩
        cases fs with
        | nil => simp at h
        | cons f' fs' =>
          simp only [List.map_cons, List.cons.injEq] at h
          have := (ih (badness fs') fs').2 ⟨h.2, rfl⟩
          rw [hr] at this; cases this
      | ok p =>
        obtain ⟨n', fs'⟩ := p
        obtain ⟨h1, h2⟩ := (ih n' fs').1 hr
        simp only [Except.ok.injEq, Prod.mk.injEq, List.map_cons, hc, bad_eq]
        unfold Fixes at h1
        constructor
        · rintro ⟨rfl, rfl⟩
          refine ⟨by simp [h1], ?_⟩
          simp only [badness, List.countP_cons] at h2 ⊢
          split <;> omega
        · rintro ⟨h, rfl⟩
          cases fs with
          | nil => simp at h
          | cons f' fs'' =>
            simp only [List.map_cons, List.cons.injEq, Except.ok.injEq] at h
            have he : fs'' = fs' := by
              have := (ih (badness fs'') fs'').2 ⟨h.2, rfl⟩
              rw [hr] at this; simp only [Except.ok.injEq, Prod.mk.injEq] at this; exact this.2.symm
            subst he
            refine ⟨?_, by rw [h.1]⟩
            rw [h.1]
            simp only [badness, List.countP_cons] at h2 ⊢
            split <;> omega

theorem fixes_length {compute : R → T → Except E Fixup} {relos : List R} {t : T} {fs : List Fixup} (h : Fixes compute relos t fs) :
    fs.length = relos.length := by
  have := congrArg List.length h; simpa using this.symm

theorem fixes_unique {compute : R → T → Except E Fixup} {relos : List R} {t : T} {fs fs' : List Fixup} (h : Fixes compute relos t fs)
    (h' : Fixes compute relos t fs') : fs = fs' := by
  have := (candidate_ok compute t relos _ fs).2 ⟨h, rfl⟩
  rw [(candidate_ok compute t relos _ fs').2 ⟨h', rfl⟩] at this
  simp only [Except.ok.injEq, Prod.mk.injEq] at this
  exact this.2.symm

theorem badness_le {fs : List Fixup} : badness fs ≤ fs.length := List.countP_le_length

theorem agree_some {fs gs : List Fixup} (hl : fs.length = gs.length) : agree (some fs) gs = true ↔ values fs = values gs := by
  unfold agree values
  simp only [Option.getD_some]
  induction fs generalizing gs with
  | nil => cases gs <;> simp_all
  | cons f fs ih =>
    cases gs with
    | nil => simp at hl
    | cons g gs =>
      simp only [List.length_cons, Nat.add_right_cancel_iff] at hl
      simp only [List.zipWith_cons_cons, List.all_cons, id, Bool.and_eq_true, ih hl, List.map_cons, List.cons.injEq, Fixup.equal, beq_iff_eq,
        Prod.mk.injEq]

/-- What the loop knows about the targets seen so far. -/
def Best (compute : R → T → Except E Fixup) (relos : List R) (seen : List T) (score : Nat) (best : Option (List Fixup)) : Prop :=
  (∀ t ∈ seen, ∃ ft, Fixes compute relos t ft) ∧ score ≤ relos.length ∧
  match best with
  | none => score = relos.length ∧ ∀ t ∈ seen, ∀ ft, Fixes compute relos t ft → badness ft = relos.length
  | some fs => score < relos.length ∧ badness fs = score ∧ (∃ t ∈ seen, Fixes compute relos t fs) ∧
      ∀ t ∈ seen, ∀ ft, Fixes compute relos t ft → score ≤ badness ft ∧ (badness ft = score → values ft = values fs)

theorem targetLoop_ok (compute : R → T → Except E Fixup) (relos : List R) : ∀ (ts seen : List T) (score : Nat) (best : Option (List Fixup))
    (r : Option (List Fixup)), Best compute relos seen score best → targetLoop compute relos ts score best = .ok r →
    ∃ score', Best compute relos (seen ++ ts) score' r
  | [], seen, score, best, r, hb, h => by
    simp only [targetLoop, Except.ok.injEq] at h
    subst h
    exact ⟨score, by simpa using hb⟩
  | t :: ts, seen, score, best, r, hb, h => by
    unfold targetLoop at h
    cases hc : candidate compute t relos with
    | error e => rw [hc] at h; cases h
    | ok p =>
      obtain ⟨sc, fs⟩ := p
      obtain ⟨hf, rfl⟩ := (candidate_ok compute t relos sc fs).1 hc
      have hlen := fixes_length hf
      have hble : badness fs ≤ relos.length := hlen ▸ badness_le
      rw [hc] at h
      simp only at h
      obtain ⟨b1, b2, b3⟩ := hb
      have next : ∀ score' best', Best compute relos (seen ++ [t]) score' best' → targetLoop compute relos ts score' best' = .ok r →
          ∃ score', Best compute relos (seen ++ t :: ts) score' r := by
        intro score' best' hb' h'
        have := targetLoop_ok compute relos ts (seen ++ [t]) score' best' r hb' h'
        simpa using this
      have all : ∀ t' ∈ seen ++ [t], ∃ ft, Fixes compute relos t' ft := by
        intro t' ht'
        rcases List.mem_append.1 ht' with h' | h'
        · exact b1 t' h'
        · rw [List.mem_singleton.1 h']; exact ⟨fs, hf⟩
      by_cases h1 : badness fs > score
      · rw [if_pos h1] at h
        refine next score best ⟨all, b2, ?_⟩ h
        cases best with
        | none => simp only at b3; omega
        | some bf =>
          obtain ⟨c1, c2, ⟨t0, c3, c4⟩, c5⟩ := b3
          refine ⟨c1, c2, ⟨t0, by simp [c3], c4⟩, ?_⟩
          intro t' ht' ft hft
          rcases List.mem_append.1 ht' with h' | h'
          · exact c5 t' h' ft hft
          · rw [List.mem_singleton.1 h'] at hft
            have := fixes_unique hf hft; subst this
            exact ⟨by omega, by omega⟩
      · rw [if_neg h1] at h
        by_cases h2 : badness fs < score
        · rw [if_pos h2] at h
          refine next (badness fs) (some fs) ⟨all, hble, ⟨by omega, rfl, ⟨t, by simp, hf⟩, ?_⟩⟩ h
          intro t' ht' ft hft
          rcases List.mem_append.1 ht' with h' | h'
          · cases best with
            | none => have := b3.2 t' h' ft hft; exact ⟨by omega, by omega⟩
            | some bf => have := b3.2.2.2 t' h' ft hft; exact ⟨by omega, by omega⟩
          · rw [List.mem_singleton.1 h'] at hft
            have := fixes_unique hf hft; subst this
            exact ⟨Nat.le_refl _, fun _ => rfl⟩
        · rw [if_neg h2] at h
          have heq : badness fs = score := by omega
          by_cases h3 : agree best fs = true
          · rw [if_pos h3] at h
            refine next score best ⟨all, b2, ?_⟩ h
            cases best with
            | none =>
              refine ⟨b3.1, ?_⟩
              intro t' ht' ft hft
              rcases List.mem_append.1 ht' with h' | h'
              · exact b3.2 t' h' ft hft
              · rw [List.mem_singleton.1 h'] at hft
                have := fixes_unique hf hft; subst this
                rw [heq]; exact b3.1
            | some bf =>
              obtain ⟨c1, c2, ⟨t0, c3, c4⟩, c5⟩ := b3
              have hv := (agree_some (by rw [fixes_length c4, hlen])).1 h3
              refine ⟨c1, c2, ⟨t0, by simp [c3], c4⟩, ?_⟩
              intro t' ht' ft hft
              rcases List.mem_append.1 ht' with h' | h'
              · exact c5 t' h' ft hft
              · rw [List.mem_singleton.1 h'] at hft
                have := fixes_unique hf hft; subst this
                exact ⟨by omega, fun _ => hv.symm⟩
          · rw [if_neg h3] at h; cases h

/-- The result when nothing matched: existence checks say no, everything else is poisoned. -/
theorem noMatch_spec (k : Kind) : (k.checksForExistence = true → noMatch k = ⟨k, 1, 0, false, false⟩) ∧
    (k.checksForExistence = false → noMatch k = ⟨k, 0, 0, true, false⟩) := by
  unfold noMatch; cases k.checksForExistence <;> simp

/-- **C33.** On success the chosen fix-ups are those of a candidate with the fewest unsatisfied relocations, and every candidate
which does as well has the same values; if no candidate satisfies anything, everything is poisoned. -/
theorem best_candidate (kind : R → Kind) (compute : R → T → Except E Fixup) (relos : List R) (targets : List T) (fs : List Fixup)
    (h : calculateFixups kind compute relos targets = .ok fs) :
    (∀ t ∈ targets, ∃ ft, Fixes compute relos t ft) ∧
    (((∃ t ∈ targets, Fixes compute relos t fs) ∧ badness fs < relos.length ∧
        ∀ t ∈ targets, ∀ ft, Fixes compute relos t ft → badness fs ≤ badness ft ∧ (badness ft = badness fs → values ft = values fs)) ∨
     (fs = relos.map (fun r => noMatch (kind r)) ∧ ∀ t ∈ targets, ∀ ft, Fixes compute relos t ft → badness ft = relos.length)) := by
  unfold calculateFixups at h
  cases hl : targetLoop compute relos targets relos.length none with
  | error e => rw [hl] at h; cases h
  | ok r =>
    rw [hl] at h
    obtain ⟨sc, hb⟩ := targetLoop_ok compute relos targets [] relos.length none r
      ⟨by simp, Nat.le_refl _, rfl, by simp⟩ hl
    rw [List.nil_append] at hb
    obtain ⟨b1, b2, b3⟩ := hb
    refine ⟨b1, ?_⟩
    cases r with
    | none =>
      simp only [Except.ok.injEq] at h
      exact .inr ⟨h.symm, b3.2⟩
    | some bf =>
      simp only [Except.ok.injEq] at h
      subst h
      obtain ⟨c1, c2, c3, c4⟩ := b3
      exact .inl ⟨c3, by omega, by rw [c2]; exact c4⟩

theorem targetLoop_err (compute : R → T → Except E Fixup) (relos : List R) : ∀ (ts seen : List T) (score : Nat) (best : Option (List Fixup))
    (e : CalcErr E), Best compute relos seen score best → targetLoop compute relos ts score best = .error e →
    (∃ r ∈ relos, ∃ t ∈ ts, ∃ x, e = .compute x ∧ compute r t = .error x) ∨
    (e = .ambiguous ∧ ∃ t ∈ seen ++ ts, ∃ t' ∈ ts, ∃ ft ft', Fixes compute relos t ft ∧ Fixes compute relos t' ft' ∧
      badness ft = badness ft' ∧ badness ft < relos.length ∧ values ft ≠ values ft')
  | [], seen, score, best, e, hb, h => by simp [targetLoop] at h
  | t :: ts, seen, score, best, e, hb, h => by
    unfold targetLoop at h
    cases hc : candidate compute t relos with
    | error x =>
      rw [hc] at h
      simp only [Except.error.injEq] at h
      have : ∀ (rs : List R), candidate compute t rs = .error x → ∃ r ∈ rs, compute r t = .error x := by
        intro rs
        induction rs with
        | nil => intro h; simp [candidate] at h
        | cons r rs ih =>
          intro h
          unfold candidate at h
          cases hr : compute r t with
          | error y => rw [hr] at h; simp only [Except.error.injEq] at h; subst h; exact ⟨r, by simp, hr⟩
          | ok f =>
            rw [hr] at h
            cases hrs : candidate compute t rs with
            | error y =>
              rw [hrs] at h; simp only [Except.error.injEq] at h; subst h
              obtain ⟨r', h1, h2⟩ := ih hrs
              exact ⟨r', by simp [h1], h2⟩
            | ok p => rw [hrs] at h; cases h
      obtain ⟨r, h1, h2⟩ := this relos hc
      exact .inl ⟨r, h1, t, by simp, x, h.symm, h2⟩
    | ok p =>
      obtain ⟨sc, fs⟩ := p
      obtain ⟨hf, rfl⟩ := (candidate_ok compute t relos sc fs).1 hc
      rw [hc] at h
      simp only at h
      have stepOk : targetLoop compute relos [t] score best = .error .ambiguous ∨
          ∃ s' b', targetLoop compute relos (t :: ts) score best = targetLoop compute relos ts s' b' ∧ Best compute relos (seen ++ [t]) s' b' := by
        by_cases hx : ∃ r, targetLoop compute relos [t] score best = .ok r
        · right
          obtain ⟨r, hr⟩ := hx
          obtain ⟨s', hb'⟩ := targetLoop_ok compute relos [t] seen score best r hb hr
          unfold targetLoop at hr
          rw [hc] at hr
          simp only [targetLoop] at hr
          have hs : ∀ {s' s'' b}, Best compute relos (seen ++ [t]) s' b → Best compute relos (seen ++ [t]) s'' b → s' = s'' := by
            intro s' s'' b h1 h2
            cases b with
            | none => exact h1.2.2.1.trans h2.2.2.1.symm
            | some b => exact h1.2.2.2.1.symm.trans h2.2.2.2.1
          by_cases h1 : badness fs > score
          · simp only [h1, if_true, Except.ok.injEq] at hr
            subst hr
            refine ⟨score, best, by rw [targetLoop, hc]; simp only [h1, if_true], ?_⟩
            have : s' = score := by
              cases best with
              | none => exact hb'.2.2.1.trans hb.2.2.1.symm
              | some b => exact hb'.2.2.2.1.symm.trans hb.2.2.2.1
            rw [← this]; exact hb'
          · by_cases h2 : badness fs < score
            · simp only [h1, h2, if_true, if_false, Except.ok.injEq] at hr
              subst hr
              refine ⟨badness fs, some fs, by rw [targetLoop, hc]; simp only [h1, h2, if_true, if_false], ?_⟩
              have : s' = badness fs := hb'.2.2.2.1.symm
              rw [← this]; exact hb'
            · by_cases h3 : agree best fs = true
              · simp only [h1, h2, h3, if_true, if_false, Except.ok.injEq] at hr
                subst hr
                refine ⟨score, best, by rw [targetLoop, hc]; simp only [h1, h2, h3, if_true, if_false], ?_⟩
                have : s' = score := by
                  cases best with
                  | none => exact hb'.2.2.1.trans hb.2.2.1.symm
                  | some b => exact hb'.2.2.2.1.symm.trans hb.2.2.2.1
                rw [← this]; exact hb'
              · rw [if_neg h1, if_neg h2, if_neg h3] at hr; cases hr
        · left
          unfold targetLoop at hx ⊢
          rw [hc] at hx ⊢
          simp only [targetLoop] at hx ⊢
          by_cases h1 : badness fs > score
          · simp [h1] at hx
          · by_cases h2 : badness fs < score
            · simp [h1, h2] at hx
            · by_cases h3 : agree best fs = true
              · simp [h1, h2, h3] at hx
              · simp [h1, h2, h3]
      rcases stepOk with ha | ⟨s', b', he, hb'⟩
      · right
        unfold targetLoop at ha
        rw [hc] at ha
        simp only [targetLoop] at ha
        by_cases h1 : badness fs > score
        · simp [h1] at ha
        · by_cases h2 : badness fs < score
          · simp [h1, h2] at ha
          · by_cases h3 : agree best fs = true
            · simp [h1, h2, h3] at ha
            · rw [if_neg h1, if_neg h2, if_neg h3] at h
              simp only [Except.error.injEq] at h
              refine ⟨h.symm, ?_⟩
              cases best with
              | none => exact absurd (by unfold agree; rfl) h3
              | some bf =>
                obtain ⟨c1, c2, ⟨t0, c3, c4⟩, c5⟩ := hb.2.2
                refine ⟨t0, by simp [c3], t, by simp, bf, fs, c4, hf, by omega, by omega, ?_⟩
                intro hv
                exact h3 ((agree_some (by rw [fixes_length c4, fixes_length hf])).2 hv)
      · have h' : targetLoop compute relos (t :: ts) score best = .error e := by rw [targetLoop, hc]; exact h
        rw [he] at h'
        rcases targetLoop_err compute relos ts (seen ++ [t]) s' b' e hb' h' with ⟨r, h1, t', h2, x, h3, h4⟩ | ⟨h1, t1, h2, t2, h3, h4⟩
        · exact .inl ⟨r, h1, t', by simp [h2], x, h3, h4⟩
        · exact .inr ⟨h1, t1, by simpa using h2, t2, by simp [h3], h4⟩

/-- An error comes from relocating against one candidate, or from two candidates with the same number of failures and different values. -/
theorem failure_reason (kind : R → Kind) (compute : R → T → Except E Fixup) (relos : List R) (targets : List T) (e : CalcErr E)
    (h : calculateFixups kind compute relos targets = .error e) :
    (∃ r ∈ relos, ∃ t ∈ targets, ∃ x, e = .compute x ∧ compute r t = .error x) ∨
    (e = .ambiguous ∧ ∃ t ∈ targets, ∃ t' ∈ targets, ∃ ft ft', Fixes compute relos t ft ∧ Fixes compute relos t' ft' ∧
      badness ft = badness ft' ∧ badness ft < relos.length ∧ values ft ≠ values ft') := by
  unfold calculateFixups at h
  cases hl : targetLoop compute relos targets relos.length none with
  | error e' =>
    rw [hl] at h
    simp only [Except.error.injEq] at h
    subst h
    have := targetLoop_err compute relos targets [] relos.length none e' ⟨by simp, Nat.le_refl _, rfl, by simp⟩ hl
    simpa using this
  | ok r => rw [hl] at h; cases r <;> cases h

/-- Two best candidates which disagree are reported, whatever the order. -/
theorem ambiguity_reported (kind : R → Kind) (compute : R → T → Except E Fixup) (relos : List R) (targets : List T)
    (t t' : T) (ft ft' : List Fixup) (ht : t ∈ targets) (ht' : t' ∈ targets) (hf : Fixes compute relos t ft) (hf' : Fixes compute relos t' ft')
    (hb : badness ft = badness ft') (hlt : badness ft < relos.length) (hv : values ft ≠ values ft')
    (hmin : ∀ u ∈ targets, ∀ fu, Fixes compute relos u fu → badness ft ≤ badness fu) :
    ∃ e, calculateFixups kind compute relos targets = .error e := by
  cases h : calculateFixups kind compute relos targets with
  | error e => exact ⟨e, rfl⟩
  | ok fs =>
    rcases (best_candidate kind compute relos targets fs h).2 with ⟨⟨u, hu, hfu⟩, _, hall⟩ | ⟨_, hall⟩
    · have h1 := hall t ht ft hf
      have h2 := hall t' ht' ft' hf'
      have h3 := hmin u hu fs hfu
      exact absurd ((h1.2 (by omega)).trans (h2.2 (by omega)).symm) hv
    · have := hall t ht ft hf; omega

/-- The order of the candidates does not matter for the values, as far as both orders succeed. -/
theorem order_irrelevant_partial (kind : R → Kind) (compute : R → T → Except E Fixup) (relos : List R) (targets targets' : List T)
    (hmem : ∀ t, t ∈ targets ↔ t ∈ targets') (fs fs' : List Fixup)
    (h : calculateFixups kind compute relos targets = .ok fs) (h' : calculateFixups kind compute relos targets' = .ok fs') :
    values fs = values fs' := by
  rcases (best_candidate kind compute relos targets fs h).2 with ⟨⟨u, hu, hfu⟩, hlt, hall⟩ | ⟨hdef, hall⟩
  · rcases (best_candidate kind compute relos targets' fs' h').2 with ⟨⟨u', hu', hfu'⟩, hlt', hall'⟩ | ⟨hdef', hall'⟩
    · have h1 := hall u' ((hmem u').2 hu') fs' hfu'
      have h2 := hall' u ((hmem u).1 hu) fs hfu
      exact (h1.2 (by omega)).symm
    · have := hall' u ((hmem u).1 hu) fs hfu; omega
  · rcases (best_candidate kind compute relos targets' fs' h').2 with ⟨⟨u', hu', hfu'⟩, hlt', hall'⟩ | ⟨hdef', hall'⟩
    · have := hall u' ((hmem u').2 hu') fs' hfu'; omega
    · rw [hdef, hdef']

/-- If every candidate can be evaluated and candidates with equally many failures agree, the call succeeds, in any order. -/
theorem agreeing_succeeds (kind : R → Kind) (compute : R → T → Except E Fixup) (relos : List R) (targets : List T)
    (hok : ∀ r ∈ relos, ∀ t ∈ targets, ∃ f, compute r t = .ok f)
    (hagree : ∀ t ∈ targets, ∀ t' ∈ targets, ∀ ft ft', Fixes compute relos t ft → Fixes compute relos t' ft' →
      badness ft = badness ft' → badness ft < relos.length → values ft = values ft') :
    ∃ fs, calculateFixups kind compute relos targets = .ok fs := by
  cases h : calculateFixups kind compute relos targets with
  | ok fs => exact ⟨fs, rfl⟩
  | error e =>
    rcases failure_reason kind compute relos targets e h with ⟨r, h1, t, h2, x, _, h4⟩ | ⟨_, t, h1, t', h2, ft, ft', h3, h4, h5, h6, h7⟩
    · obtain ⟨f, hf⟩ := hok r h1 t h2; rw [hf] at h4; cases h4
    · exact absurd (hagree t h1 t' h2 ft ft' h3 h4 h5 h6) h7

/-! ### What is missing: the order does matter -/

/-- Three candidates and two relocations: `A` and `B` each satisfy one, `C` both. -/
def exCompute : Nat → Nat → Except Unit Fixup
  | 0, 0 => .ok ⟨.byteOffset, 0, 8, false, false⟩
  | 0, 1 => .ok ⟨.byteOffset, 0, 0, true, false⟩
  | 1, 0 => .ok ⟨.byteOffset, 0, 0, true, false⟩
  | 1, 1 => .ok ⟨.byteOffset, 4, 8, false, false⟩
  | 0, _ => .ok ⟨.byteOffset, 0, 16, false, false⟩
  | _, _ => .ok ⟨.byteOffset, 4, 20, false, false⟩

/-- A tie between two candidates is reported although a better candidate follows; if it comes first, all is well. -/
theorem tie_before_best_fails :
    calculateFixups (fun _ => .byteOffset) exCompute [0, 1] [0, 1, 2] = .error .ambiguous ∧
    calculateFixups (fun _ => .byteOffset) exCompute [0, 1] [2, 0, 1] = .ok [⟨.byteOffset, 0, 16, false, false⟩, ⟨.byteOffset, 4, 20, false, false⟩] := by
  decide

/-- Two candidates, each satisfying the relocation the other one fails, with equal values: impossible relocations carry the values (0, 0). -/
def exPoison : Nat → Nat → Except Unit Fixup
  | 0, 0 => .ok ⟨.byteOffset, 0, 0, false, false⟩
  | 0, _ => .ok ⟨.byteOffset, 0, 0, true, false⟩
  | _, 0 => .ok ⟨.byteOffset, 0, 0, true, false⟩
  | _, _ => .ok ⟨.byteOffset, 0, 0, false, false⟩

/-- Which instruction is poisoned depends on the order of the candidates: the comparison of tied candidates ignores poisoning. -/
theorem poison_depends_on_order :
    ∃ fs fs', calculateFixups (fun _ => .byteOffset) exPoison [0, 1] [0, 1] = .ok fs ∧
      calculateFixups (fun _ => .byteOffset) exPoison [0, 1] [1, 0] = .ok fs' ∧
      fs.map (·.poison) = [false, true] ∧ fs'.map (·.poison) = [true, false] :=
  ⟨_, _, rfl, rfl, rfl, rfl⟩

end Ebpf.Core

import Verif.Props.ElfReloc
/-!
# C66: calls, function pointers, variables and maps
-/
namespace Ebpf.Elf
open Ebpf.Asm Ebpf.LinkerFix Ebpf.Elf.Spec Ebpf.Linker.Spec

theorem signExtend_toInt (x : BitVec 32) : (x.signExtend 64).toInt = x.toInt := by
  rw [BitVec.toInt_signExtend_of_le (by omega)]

theorem toInt_32 (x : BitVec 32) : -(2 ^ 31) ≤ x.toInt ∧ x.toInt < 2 ^ 31 := by
  have h := @BitVec.toInt_lt 32 x
  have h' := @BitVec.le_toInt 32 x
  simp only [Nat.add_one_sub_one] at h h'
  exact ⟨by simpa using h', by simpa using h⟩

theorem toNat_of_toInt64 (v : BitVec 64) : (v.toNat : Int) = if v.toInt < 0 then v.toInt + 2 ^ 64 else v.toInt := by
  have := BitVec.toInt_eq_toNat_cond v
  have h := v.isLt
  split at this <;> split <;> omega

/-- elf_reader.go:683: the offset of a call through a section symbol. -/
theorem section_call_offset (x : BitVec 32) (h : (((x.signExtend 64).setWidth 32 + 1#32).signExtend 64 * 8#64).toNat < 2 ^ 32) :
    ((((x.signExtend 64).setWidth 32 + 1#32).signExtend 64 * 8#64).toNat : Int) = (x.toInt + 1) * 8 := by
  have e : (x.signExtend 64).setWidth 32 = x := by
    apply BitVec.eq_of_toInt_eq
    obtain ⟨b1, b2⟩ := toInt_32 x
    rw [BitVec.toInt_setWidth]
    have h3 : (x.signExtend 64).toInt = Int.bmod (x.signExtend 64).toNat (2 ^ 64) := BitVec.toInt_eq_toNat_bmod _
    have : ((x.signExtend 64).toNat : Int).bmod (2 ^ 32) = ((x.signExtend 64).toInt).bmod (2^32) := by
      rw [h3, Int.bmod_bmod_of_dvd (by decide : (2 ^ 32 : Nat) ∣ 2 ^ 64)]
    rw [this, signExtend_toInt]
    apply Int.bmod_eq_of_le <;> omega
  rw [e] at h ⊢
  obtain ⟨b1, b2⟩ := toInt_32 x
  have hadd : (x + 1#32).toInt = (x.toInt + 1).bmod (2 ^ 32) := by
    rw [BitVec.toInt_add]; rfl
  have hmul : ((x + 1#32).signExtend 64 * 8#64).toInt = ((x + 1#32).toInt * 8).bmod (2 ^ 64) := by
    rw [BitVec.toInt_mul, signExtend_toInt]; rfl
  have hb := toInt_32 (x + 1#32)
  have hmul' : ((x + 1#32).signExtend 64 * 8#64).toInt = (x + 1#32).toInt * 8 := by
    rw [hmul]
    apply Int.bmod_eq_of_le <;> omega
  have hn := toNat_of_toInt64 ((x + 1#32).signExtend 64 * 8#64)
  rw [hmul'] at hn
  by_cases hx : x.toInt + 1 < 2 ^ 31
  · have : (x + 1#32).toInt = x.toInt + 1 := by
      rw [hadd]; apply Int.bmod_eq_of_le <;> omega
    rw [this] at hn
    split at hn <;> omega
  · have hx' : x.toInt = 2 ^ 31 - 1 := by omega
    rw [hx'] at hadd
    have : (x + 1#32).toInt = -(2 ^ 31) := by rw [hadd]; decide
    rw [this] at hn
    split at hn <;> omega

theorem jumpTarget_nat (off : Nat) (i : Ins) (x : BitVec 32) (hx : i.cons = x.signExtend 64) (ho : off < 2 ^ 40)
    (ht : 0 ≤ (off : Int) + 8 + i.cons.toInt * 8) : ((jumpTarget (BitVec.ofNat 64 off) i).toNat : Int) = off + 8 + i.cons.toInt * 8 := by
  obtain ⟨b1, b2⟩ := toInt_32 x
  have hc : i.cons.toInt = x.toInt := by rw [hx, signExtend_toInt]
  have hoi : (BitVec.ofNat 64 off + 8#64).toInt = off + 8 := by
    rw [BitVec.toInt_add, BitVec.toInt_ofNat']
    have : ((off : Int)).bmod (2 ^ 64) = off := by apply Int.bmod_eq_of_le <;> omega
    rw [this]
    have e8 : (8#64).toInt = 8 := by decide
    rw [e8]
    apply Int.bmod_eq_of_le <;> omega
  have hm : (i.cons * 8#64).toInt = i.cons.toInt * 8 := by
    rw [BitVec.toInt_mul]
    have e8 : (8#64).toInt = 8 := by decide
    rw [e8]
    apply Int.bmod_eq_of_le <;> omega
  have hd : (i.cons * 8#64 + (BitVec.ofNat 64 off + 8#64)).toInt = off + 8 + i.cons.toInt * 8 := by
    rw [BitVec.toInt_add, hm, hoi]
    have : i.cons.toInt * 8 + ((off : Int) + 8) = off + 8 + i.cons.toInt * 8 := by omega
    rw [this]
    apply Int.bmod_eq_of_le <;> omega
  unfold jumpTarget
  simp only
  have hs : ¬ (i.cons * 8#64 + (BitVec.ofNat 64 off + 8#64)).slt 0#64 = true := by
    rw [BitVec.slt_iff_toInt_lt, hd]
    have : (0#64).toInt = 0 := by decide
    omega
  rw [if_neg hs, toNat_of_toInt64, hd]
  split <;> omega

theorem isCall_function (i : Ins) : i.isFunctionCall = true ↔ IsCall i := by
  unfold Ins.isFunctionCall IsCall Call Ins.PseudoCall
  simp only [Bool.and_eq_true, beq_iff_eq]

theorem ones_toInt : (BitVec.allOnes 64).toInt = -1 := by decide

theorem kind_of {o : Object} (wf : WellFormed o) {l : List (Nat × Sec)} (hr : readSecs o o.secs = .ok l) {k : Nat} {kd : Kind} (h : HasKind o k kd) :
    ∃ sec, (k, sec) ∈ l ∧ (codeOf o l).sections k = some sec ∧ sec.kind = kd := by
  obtain ⟨raw, hm, hk⟩ := h
  obtain ⟨sec, hs, hl, hlk⟩ := section_of hr wf hm
  exact ⟨sec, hl, hlk, by rw [(readSec_spec hs).1]; exact hk⟩

/-- C66 (partial): calls and function pointers. The function of the result called `name` is made of the instructions of a function of the
object; and its references to functions lead to the code the relocations (or the relative offsets) say. Missing, because false: calls to a named function
with an addend (`call_addend_dropped`), function pointers that name a global function (`funcptr_wrong_function`), relative calls to
negative offsets (`negative_call`), functions with two names (`alias_lost`). -/
theorem calls_resolve_partial (o : Object) (bo : ByteOrder) (progs : List (String × Bool × List LIns)) (h : loadObject o bo = .ok progs)
    (wf : WellFormed o) (na : NoAliases o) (name : String) (x : Bool) (f : List LIns) (hl : progs.lookup name = some (x, f)) :
    ∃ (k off : Nat) (raw : List Ins), CodeAt o bo ⟨k, off⟩ name raw ∧ MadeOf name raw f ∧
      ∀ (n : Nat) (i : Ins), raw[n]? = some i → ∃ j : LIns, f[n]? = some j ∧
        (∀ r, Relocation o k (off + offsetOf raw n) r → HasKind o r.sec .program → IsCall i → (r.typ = .sect ∨ i.cons.toInt = -1) →
          Resolved o bo progs j (callTarget r i)) ∧
        (∀ r, Relocation o k (off + offsetOf raw n) r → HasKind o r.sec .program → IsLoad i → r.typ = .sect → 0 ≤ i.cons.toInt →
          Resolved o bo progs j (loadTarget r i)) ∧
        (NoRelocation o k (off + offsetOf raw n) → IsCall i → i.cons.toInt ≠ -1 → 0 ≤ (relativeTarget k (off + offsetOf raw n) i).off →
          Resolved o bo progs j (relativeTarget k (off + offsetOf raw n) i)) ∧
        (NoRelocation o k (off + offsetOf raw n) → ¬ IsCall i → ¬ (IsLoad i ∧ i.src = 4#8) → j.p.ins = i ∧ j.p.ref = "") := by
  obtain ⟨l, F⟩ := loadObject_facts h
  obtain ⟨k, sec, off, s, hk, hp, hs, hn, hx, hf⟩ := F.only name x f (lookup_pair hl)
  obtain ⟨y1, y2, y3, y4, y5, y6, f', raw', y7, y8, y9⟩ := symbol_loaded F hk hp hs
  obtain ⟨v1, v2, v3, raw, v4, v5, v6, v7⟩ := loadFunction_spec _ _ _ _ _ hf
  obtain ⟨rs, hrs, hread⟩ := raw_of F.read hk
  obtain ⟨s1, s2, s3, s4, s5, s6⟩ := readSec_spec hread
  have hcode : CodeAt o bo ⟨k, s.value.toNat⟩ name raw := by
    refine ⟨rs, s, hrs, by rw [← s1]; exact hp, y1, y2, hn, rfl, ?_, by rw [← s3]; exact v3, by rw [← s3]; exact v4, v5⟩
    rcases y4.2 with h' | h'
    · exact Or.inl h'
    · exact Or.inr h'.1
  rw [hn] at v6
  obtain ⟨a1, a2⟩ := appendFuel_spec _ _ _ _ _ v4
  have hlen : ((sec.data.drop s.value.toNat).take s.size.toNat).length < 2 ^ 32 := by
    rw [List.length_take]; omega
  refine ⟨k, s.value.toNat, raw, hcode, v6, ?_⟩
  intro n i hi
  obtain ⟨j, hj, hres⟩ := v7 n i hi
  have hofs := offsetOf_le raw n
  have hoff : s.value + BitVec.ofNat 64 (offsetOf raw n) = BitVec.ofNat 64 (s.value.toNat + offsetOf raw n) := by
    rw [BitVec.ofNat_add, BitVec.ofNat_toNat, BitVec.setWidth_eq]
  rw [hoff] at hres
  refine ⟨j, hj, ?_, ?_, ?_, ?_⟩
  · -- calls with a relocation
    intro r hr hkd hcall hwhat
    unfold resolveOne at hres
    rw [relocation_found wf hrs hread hr] at hres
    simp only at hres
    obtain ⟨tsec, ht, htl, htk⟩ := kind_of wf F.read hkd
    unfold relocateInstruction at hres
    rw [htl] at hres
    simp only [htk] at hres
    unfold relocProg at hres
    have hj1 : (freshIns s.name n i).p.ins = i := rfl
    rw [hj1, if_pos (show i.op.jumpOp = Call from hcall.1)] at hres
    unfold relocCall at hres
    rw [hj1, if_neg (by rw [hcall.2]; decide)] at hres
    have hrm : r ∈ o.syms := by
      obtain ⟨_, m, _, _, _, hm⟩ := hr
      exact List.mem_of_getElem? hm
    have named : ∀ (hfn : r.typ = .func ∨ (r.typ = .notype ∧ r.bind ≠ .loc)) (hc : i.cons.toInt = -1) (hjr : j = withRef (freshIns s.name n i) r.name),
        Resolved o bo progs j (callTarget r i) := by
      intro hfn hc hjr
      have hname := wf.named r hrm hfn
      have hif : IsFunction r := ⟨hname, hfn⟩
      obtain ⟨traw, htr, htread⟩ := raw_of F.read ht
      obtain ⟨t1, t2, t3, t4, t5, t6⟩ := readSec_spec htread
      have hsome : (tsec.symbols.lookup r.value).isSome := by
        rw [t4]
        apply assignSymbols_some
        refine Or.inl ⟨r, hrm, rfl, hname, ?_, rfl⟩
        rw [← t1, htk]
        exact (keep_function r hname).2 hif
      obtain ⟨t, hts⟩ := Option.isSome_iff_exists.1 hsome
      obtain ⟨z1, z2, z3, z4, z5, z6, f2, raw2, z7, z8, z9⟩ := symbol_loaded F ht htk hts
      have := na t z1 r hrm z4 hif z2 z3
      subst this
      refine ⟨t.name, _, f2, raw2, ?_, z7, ?_, z9⟩
      · rw [hjr]
        exact ⟨rfl, hname, hc, Or.inl hcall⟩
      · unfold callTarget
        rw [hc]
        simpa using z8
    cases htyp : r.typ with
    | sect =>
      rw [htyp] at hres
      simp only at hres
      by_cases hb : r.bind ≠ .loc
      · rw [if_pos hb] at hres; cases hres
      · rw [if_neg hb] at hres
        cases hts : tsec.symbols.lookup (((i.cons.setWidth 32 + 1#32).signExtend 64) * 8#64) with
        | none => rw [hts] at hres; cases hres
        | some t =>
          rw [hts] at hres
          simp only [Except.ok.injEq] at hres
          obtain ⟨z1, z2, z3, z4, z5, z6, f2, raw2, z7, z8, z9⟩ := symbol_loaded F ht htk hts
          obtain ⟨c, hc⟩ := a2 i (List.mem_of_getElem? hi) hcall
          refine ⟨t.name, _, f2, raw2, ?_, z7, ?_, z9⟩
          · rw [← hres]
            exact ⟨rfl, z4.1, ones_toInt, Or.inl hcall⟩
          · unfold callTarget
            rw [wf.sections r hrm htyp]
            rw [z3, hc] at z5
            have := section_call_offset c z5
            rw [z3, hc, this] at z8
            rw [hc, signExtend_toInt]
            have e0 : ((0#64).toNat : Int) = 0 := by decide
            rw [e0, Int.zero_add]
            exact z8
    | func =>
      rw [htyp] at hres
      simp only at hres
      by_cases hb : r.bind ≠ .glob ∧ r.bind ≠ .weak
      · rw [if_pos hb] at hres; cases hres
      · rw [if_neg hb] at hres
        simp only [Except.ok.injEq] at hres
        rcases hwhat with hw | hw
        · rw [htyp] at hw; cases hw
        · exact named (Or.inl htyp) hw hres.symm
    | notype =>
      rw [htyp] at hres
      simp only at hres
      by_cases hb : r.bind ≠ .glob ∧ r.bind ≠ .weak
      · rw [if_pos hb] at hres; cases hres
      · rw [if_neg hb] at hres
        simp only [Except.ok.injEq] at hres
        rcases hwhat with hw | hw
        · rw [htyp] at hw; cases hw
        · refine named (Or.inr ⟨htyp, ?_⟩) hw hres.symm
          intro hh
          apply hb
          rw [hh]
          exact ⟨by decide, by decide⟩
    | object => rw [htyp] at hres; cases hres
    | other => rw [htyp] at hres; cases hres
  · -- function pointers
    intro r hr hkd hload htyp hpos
    unfold resolveOne at hres
    rw [relocation_found wf hrs hread hr] at hres
    simp only at hres
    obtain ⟨tsec, ht, htl, htk⟩ := kind_of wf F.read hkd
    unfold relocateInstruction at hres
    rw [htl] at hres
    simp only [htk] at hres
    unfold relocProg at hres
    have hj1 : (freshIns s.name n i).p.ins = i := rfl
    have hop : i.op = 0x18#32 := hload
    rw [hj1, if_neg (by rw [hop]; decide), if_pos ((isDWordLoad_iff _).2 hop)] at hres
    have hrm : r ∈ o.syms := by
      obtain ⟨_, m, _, _, _, hm⟩ := hr
      exact List.mem_of_getElem? hm
    unfold relocFuncPtr at hres
    rw [htyp] at hres
    simp only [hj1] at hres
    by_cases hb : r.bind ≠ .loc
    · rw [if_pos hb] at hres; cases hres
    · rw [if_neg hb] at hres
      simp only at hres
      cases hts : tsec.symbols.lookup i.cons with
      | none => rw [hts] at hres; cases hres
      | some t =>
        rw [hts] at hres
        simp only [Except.ok.injEq] at hres
        obtain ⟨z1, z2, z3, z4, z5, z6, f2, raw2, z7, z8, z9⟩ := symbol_loaded F ht htk hts
        refine ⟨t.name, _, f2, raw2, ?_, z7, ?_, z9⟩
        · rw [← hres]
          exact ⟨rfl, z4.1, ones_toInt, Or.inr ⟨hop, rfl⟩⟩
        · unfold loadTarget
          rw [wf.sections r hrm htyp]
          have e0 : ((0#64).toNat : Int) = 0 := by decide
          have e1 := toNat_of_toInt64 i.cons
          rw [if_neg (by omega)] at e1
          rw [e0, Int.zero_add, ← e1, ← z3]
          exact z8
  · -- relative calls
    intro hnr hcall hc hpos
    unfold resolveOne at hres
    rw [norelocation_found hrs hread hnr] at hres
    simp only at hres
    unfold referenceRelativeJump at hres
    have hj1 : (freshIns s.name n i).p.ins = i := rfl
    rw [hj1] at hres
    have hfr : i.isFunctionReference = true := by
      unfold Ins.isFunctionReference
      rw [(isCall_function i).2 hcall]; rfl
    have hne : (i.cons == BitVec.allOnes 64) = false := by
      rw [beq_eq_false_iff_ne]
      intro hh; rw [hh] at hc; exact hc ones_toInt
    rw [hfr, hne, if_neg (by decide)] at hres
    simp only at hres
    cases hts : sec.symbols.lookup (jumpTarget (BitVec.ofNat 64 (s.value.toNat + offsetOf raw n)) i) with
    | none => rw [hts] at hres; simp at hres
    | some t =>
      rw [hts] at hres
      simp only at hres
      obtain ⟨z1, z2, z3, z4, z5, z6, f2, raw2, z7, z8, z9⟩ := symbol_loaded F hk hp hts
      rw [if_neg z4.1] at hres
      simp only [Except.ok.injEq] at hres
      obtain ⟨c, hcc⟩ := a2 i (List.mem_of_getElem? hi) hcall
      refine ⟨t.name, _, f2, raw2, ?_, z7, ?_, z9⟩
      · rw [← hres]
        exact ⟨rfl, z4.1, ones_toInt, Or.inl hcall⟩
      · have hjt := jumpTarget_nat (s.value.toNat + offsetOf raw n) i c hcc (by omega) (by simpa [relativeTarget] using hpos)
        unfold relativeTarget
        rw [← hjt, ← z3]
        exact z8
  · -- everything else
    intro hnr hcall hload
    unfold resolveOne at hres
    rw [norelocation_found hrs hread hnr] at hres
    simp only at hres
    unfold referenceRelativeJump at hres
    have hj1 : (freshIns s.name n i).p.ins = i := rfl
    rw [hj1] at hres
    have hfr : i.isFunctionReference = false := by
      unfold Ins.isFunctionReference
      rw [Bool.or_eq_false_iff]
      constructor
      · rw [Bool.eq_false_iff]; intro hh; exact hcall ((isCall_function i).1 hh)
      · rw [Bool.eq_false_iff]; intro hh
        unfold Ins.isLoadOfFunctionPointer at hh
        simp only [Bool.and_eq_true, beq_iff_eq] at hh
        exact hload ⟨(isDWordLoad_iff _).1 hh.1, hh.2⟩
    rw [if_pos (by simp [hfr])] at hres
    simp only [Except.ok.injEq] at hres
    rw [← hres]
    exact ⟨rfl, rfl⟩

end Ebpf.Elf

import Verif.Spec.Instruction
import Verif.Lemmas.Instruction
import Verif.Props.Platform
/-!
# C02, C03, C05: single instruction codec
-/
set_option linter.unusedSimpArgs false
namespace Ebpf.Asm
open OpCode

theorem aluByte_iff : ∀ b : Byte, clsIsALU (cls (b.setWidth 32)) = true ↔ b.toNat % 8 = 4 ∨ b.toNat % 8 = 7 := by
  decide +kernel
theorem helper_iff : ∀ b : Byte, jumpOp (b.setWidth 32) = Call ↔ b.toNat % 8 = 5 ∧ b.toNat / 16 = 8 := by
  decide +kernel
theorem aluHi_iff : ∀ b : Byte, clsIsALU (cls (b.setWidth 32)) = true →
    ((b.toNat / 16 = 3 ↔ aluOp (b.setWidth 32) = Div) ∧ (b.toNat / 16 = 9 ↔ aluOp (b.setWidth 32) = Mod)
      ∧ (b.toNat / 16 = 11 ↔ aluOp (b.setWidth 32) = Mov)) := by
  decide +kernel
theorem split_zero (bo : ByteOrder) : ∀ b : Byte, (splitRegs bo b).1 = 0#8 → (splitRegs bo b).2 = 0#8 → b = 0#8 := by
  cases bo <;> decide +kernel

/-- What the class specific steps of decoding and encoding do to a header that came off the wire. -/
theorem class_roundtrip (plat : String) (b0 : Byte) (h j : Ins) (imm : BitVec 32)
    (hop : h.op = b0.setWidth 32) (hcons : h.cons = imm.signExtend 64)
    (halu : clsIsALU (cls (b0.setWidth 32)) = true → Spec.aluOffsetKnown b0 h.off)
    (hcall : h.isBuiltinCall = true → imm.toNat < 2 ^ 31)
    (hu : unmarshalClass plat h = .ok j) :
    ∃ k, marshalClass plat j = .ok (k, imm) ∧ k.op = b0.setWidth 32 ∧ k.off = h.off
      ∧ j.op ≠ InvalidOpCode ∧ j.dst = h.dst ∧ j.src = h.src
      ∧ (j.op.isDWordLoad = true → j = h ∧ k = h) := by
  have himm : h.cons.setWidth 32 = imm := by rw [hcons]; exact signExtend_setWidth imm
  unfold unmarshalClass at hu
  by_cases hb : h.isBuiltinCall = true
  · rw [if_pos hb] at hu
    have hlt := hcall hb
    have hnn : 0 ≤ h.cons.toInt := by
      rw [hcons, BitVec.toInt_signExtend_of_le (by decide), BitVec.toInt_eq_toNat_of_lt (by omega)]
      omega
    rw [if_pos hnn, himm] at hu
    cases he : Platform.encodeConstant plat imm with
    | none => rw [he] at hu; cases hu
    | some fn =>
      rw [he] at hu
      simp only [Except.ok.injEq] at hu
      subst hu
      have hd := decode_encodeConstant plat imm fn he
      have hjb : Ins.isBuiltinCall { h with cons := fn.setWidth 64 } = true := hb
      have hfn : ((fn.setWidth 64 : BitVec 64).setWidth 32 : BitVec 32) = fn := by
        apply BitVec.eq_of_toNat_eq
        simp only [BitVec.toNat_setWidth]
        have := fn.isLt
        omega
      have hdw : isDWordLoad h.op = false := by
        have hb' := hb
        unfold Ins.isBuiltinCall at hb'
        simp only [Bool.and_eq_true, beq_iff_eq] at hb'
        unfold isDWordLoad; rw [beq_eq_false_iff_ne]; intro hh
        rw [hh] at hb'; exact absurd hb'.1.1 (by decide)
      refine ⟨{ h with cons := fn.setWidth 64 }, ?_, hop, rfl, ?_, rfl, rfl, ?_⟩
      · unfold marshalClass
        simp only [hjb, if_true, hfn, hd]
        simp
      · rw [show ({ h with cons := fn.setWidth 64 } : Ins).op = h.op from rfl, hop]; exact byte_ne_invalid b0
      · intro hh; rw [show ({ h with cons := fn.setWidth 64 } : Ins).op = h.op from rfl, hdw] at hh; cases hh
  · rw [if_neg hb] at hu
    by_cases ha : clsIsALU h.op.cls = true
    · rw [if_pos ha] at hu
      simp only [Except.ok.injEq] at hu
      have ha' : clsIsALU (cls (b0.setWidth 32)) = true := by rw [← hop]; exact ha
      have hk := halu ha'
      have hhi := aluHi_iff b0 ha'
      have f7 := alu_facts7 b0 ha'
      have f6 := alu_facts6 b0 ha'
      -- the three shapes of result
      have ext : ∀ (b e off' : BitVec 16), ExtOK (b0.setWidth 32) b e → h.off = off' →
          (∀ i : Ins, i.op = setALUOp (b0.setWidth 32) e → i.off = 0#16 →
            marshalALU i = .ok { i with op := i.op.setALUOp b, off := off' }) →
          j = { h with op := h.op.setALUOp e, off := 0#16 } →
          ∃ k, marshalClass plat j = .ok (k, imm) ∧ k.op = b0.setWidth 32 ∧ k.off = h.off
            ∧ j.op ≠ InvalidOpCode ∧ j.dst = h.dst ∧ j.src = h.src
            ∧ (j.op.isDWordLoad = true → j = h ∧ k = h) := by
        intro b e off' hE hoff hm hj
        obtain ⟨e1, e2, e3, e4, e5, e6⟩ := hE
        have hjop : j.op = setALUOp (b0.setWidth 32) e := by rw [hj, ← hop]
        have hjoff : j.off = 0#16 := by rw [hj]
        have hjc : j.cons = h.cons := by rw [hj]
        refine ⟨{ j with op := j.op.setALUOp b, off := off' }, ?_, ?_, ?_, ?_, ?_, ?_, ?_⟩
        · unfold marshalClass
          have nb : ¬ (j.isBuiltinCall = true) := by
            unfold Ins.isBuiltinCall
            simp only [Bool.and_eq_true, beq_iff_eq, hjop]
            intro hh; exact e5 hh.1.1
          simp only [if_neg nb]
          rw [if_pos (by rw [hjop]; exact e1), hm j hjop hjoff, hjc, himm]
          rfl
        · show OpCode.setALUOp j.op b = _
          rw [hjop]; exact e3
        · exact hoff.symm
        · rw [hjop]; exact e4
        · rw [hj]
        · rw [hj]
        · rw [hjop, e6]; intro hh; cases hh
      have plain : j = h → (h.off = 0#16) →
          ∃ k, marshalClass plat j = .ok (k, imm) ∧ k.op = b0.setWidth 32 ∧ k.off = h.off
            ∧ j.op ≠ InvalidOpCode ∧ j.dst = h.dst ∧ j.src = h.src
            ∧ (j.op.isDWordLoad = true → j = h ∧ k = h) := by
        intro hj h0
        subst hj
        refine ⟨{ j with off := 0#16 }, ?_, hop, h0.symm, ?_, rfl, rfl, ?_⟩
        · unfold marshalClass
          simp only [if_neg hb, if_pos ha, himm]
          unfold marshalALU
          rw [hop, if_neg f6.1, if_neg f6.2.1, if_neg f6.2.2.1, if_neg f6.2.2.2.1, if_neg f6.2.2.2.2]
          rfl
        · rw [hop]; exact byte_ne_invalid b0
        · rw [hop, f7.2]; intro hh; cases hh
      unfold unmarshalALU at hu
      rw [hop] at hu
      by_cases hD : aluOp (b0.setWidth 32) = Div
      · rw [if_pos hD] at hu
        by_cases h1 : h.off = 1#16
        · rw [if_pos h1] at hu
          refine ext Div SDiv 1#16 (alu_facts1 b0 ha' hD) h1 ?_ (by rw [← hu, hop])
          intro i hi hi0
          unfold marshalALU
          rw [hi, (alu_facts1 b0 ha' hD).2.1, if_pos rfl, hi0]; simp
        · rw [if_neg h1] at hu
          refine plain hu.symm ?_
          rcases hk with h | h | h
          · exact h
          · exact absurd h.1 h1
          · have : aluOp (b0.setWidth 32) = Mov := hhi.2.2.1 h.2
            rw [hD] at this; exact absurd this (by decide)
      · rw [if_neg hD] at hu
        by_cases hM : aluOp (b0.setWidth 32) = Mod
        · rw [if_pos hM] at hu
          by_cases h1 : h.off = 1#16
          · rw [if_pos h1] at hu
            refine ext Mod SMod 1#16 (alu_facts2 b0 ha' hM) h1 ?_ (by rw [← hu, hop])
            intro i hi hi0
            unfold marshalALU
            rw [hi, (alu_facts2 b0 ha' hM).2.1, if_neg (by decide), if_pos rfl, hi0]; simp
          · rw [if_neg h1] at hu
            refine plain hu.symm ?_
            rcases hk with h | h | h
            · exact h
            · exact absurd h.1 h1
            · have : aluOp (b0.setWidth 32) = Mov := hhi.2.2.1 h.2
              rw [hM] at this; exact absurd this (by decide)
        · rw [if_neg hM] at hu
          have not1 : h.off = 1#16 → False := by
            intro h1
            rcases hk with h | h | h
            · rw [h1] at h; exact absurd h (by decide)
            · rcases h.2 with h | h
              · exact hD (hhi.1.1 h)
              · exact hM (hhi.2.1.1 h)
            · rw [h1] at h; exact absurd h.1 (by decide)
          by_cases hV : aluOp (b0.setWidth 32) = Mov
          · rw [if_pos hV] at hu
            by_cases h8 : h.off = 8#16
            · rw [if_pos h8] at hu
              refine ext Mov MovSX8 8#16 (alu_facts3 b0 ha' hV) h8 ?_ (by rw [← hu, hop])
              intro i hi hi0
              unfold marshalALU
              rw [hi, (alu_facts3 b0 ha' hV).2.1, if_neg (by decide), if_neg (by decide), if_pos rfl, hi0]; simp
            · rw [if_neg h8] at hu
              by_cases h16 : h.off = 16#16
              · rw [if_pos h16] at hu
                refine ext Mov MovSX16 16#16 (alu_facts4 b0 ha' hV) h16 ?_ (by rw [← hu, hop])
                intro i hi hi0
                unfold marshalALU
                rw [hi, (alu_facts4 b0 ha' hV).2.1, if_neg (by decide), if_neg (by decide), if_neg (by decide),
                  if_pos rfl, hi0]; simp
              · rw [if_neg h16] at hu
                by_cases h32 : h.off = 32#16
                · rw [if_pos h32] at hu
                  refine ext Mov MovSX32 32#16 (alu_facts5 b0 ha' hV) h32 ?_ (by rw [← hu, hop])
                  intro i hi hi0
                  unfold marshalALU
                  rw [hi, (alu_facts5 b0 ha' hV).2.1, if_neg (by decide), if_neg (by decide), if_neg (by decide),
                    if_neg (by decide), if_pos rfl, hi0]; simp
                · rw [if_neg h32] at hu
                  refine plain hu.symm ?_
                  rcases hk with h | h | h
                  · exact h
                  · exact absurd h.1 not1
                  · rcases h.1 with h | h | h
                    · exact absurd h h8
                    · exact absurd h h16
                    · exact absurd h h32
          · rw [if_neg hV] at hu
            refine plain hu.symm ?_
            rcases hk with h | h | h
            · exact h
            · exact absurd h.1 not1
            · exact absurd (hhi.2.2.1 h.2) hV
    · rw [if_neg ha] at hu
      by_cases hat : (h.op.cls == StXClass && h.op.mode == AtomicMode) = true
      · rw [if_pos hat] at hu
        simp only [Except.ok.injEq] at hu
        rw [Bool.and_eq_true, beq_iff_eq, beq_iff_eq, hop] at hat
        have hmask : ((h.cons <<< 8).setWidth 32 &&& atomicMask) &&& ~~~atomicMask = 0 := by
          ext i hi
          simp only [BitVec.getElem_and, BitVec.getElem_not]
          cases atomicMask[i] <;> simp
        have F := atomic_facts b0 ((h.cons <<< 8).setWidth 32 &&& atomicMask) hmask hat.1 hat.2
        simp only at F
        rw [← hop] at F
        obtain ⟨f1, f2, f3, f4, f5, f6, f7, f8⟩ := F
        have hjop : j.op = h.op ||| ((h.cons <<< 8).setWidth 32 &&& atomicMask) := by rw [← hu]
        have hjc : j.cons = h.cons := by rw [← hu]
        have hjoff : j.off = h.off := by rw [← hu]
        refine ⟨{ j with op := j.op &&& ~~~atomicMask, cons := (j.op.atomicOp >>> 8).setWidth 64 }, ?_, ?_, hjoff, ?_, ?_, ?_, ?_⟩
        · unfold marshalClass
          have nb : ¬ (j.isBuiltinCall = true) := by
            unfold Ins.isBuiltinCall
            simp only [Bool.and_eq_true, beq_iff_eq, hjop, f6]
            intro hh; exact absurd hh.1.1 (by decide)
          simp only [if_neg nb]
          rw [if_neg (by rw [hjop, f7]; decide), if_pos, hjc, himm]
          rw [hjop, f3]
          intro hh
          have : InvalidAtomic &&& ~~~atomicMask = 0 := by rw [← hh]; exact hmask
          exact absurd this (by decide)
        · show j.op &&& ~~~atomicMask = _
          rw [hjop, ← hop]; exact f4
        · rw [hjop]; exact f8
        · rw [← hu]
        · rw [← hu]
        · rw [hjop, f5]; intro hh; cases hh
      · rw [if_neg hat] at hu
        simp only [Except.ok.injEq] at hu
        subst hu
        refine ⟨h, ?_, hop, rfl, ?_, rfl, rfl, fun _ => ⟨rfl, rfl⟩⟩
        · unfold marshalClass
          simp only [if_neg hb, if_neg ha, himm]
          rw [if_neg]
          rw [Classical.not_not]
          unfold atomicOp
          rw [if_pos]
          simp only [Bool.and_eq_true, beq_iff_eq, not_and] at hat
          simp only [Bool.or_eq_true, bne_iff_ne]
          by_cases hc : h.op.cls = StXClass
          · exact Or.inr (hat hc)
          · exact Or.inl hc
        · rw [hop]; exact byte_ne_invalid b0

/-- C02, full statement: whatever `Unmarshal` accepts is written back unchanged by `Marshal`. -/
def DecodeEncodeIdentity : Prop :=
  ∀ (bo : ByteOrder) (plat : String) (data rest : Bytes) (i : Ins),
    unmarshal bo plat data = .ok (i, rest) →
    ∃ w, marshal plat bo i = .ok w ∧ data = w ++ rest ∧ (w.length = 8 ∨ w.length = 16)

/-- C02 (partial): the identity holds for all bytes whose ALU offset has a meaning known to the
decoder and whose helper call number is not negative. `decode_encode_counterexample*` show that the
conditions cannot be dropped. -/
theorem decode_encode_partial (bo : ByteOrder) (plat : String) (data rest : Bytes) (i : Ins)
    (h : unmarshal bo plat data = .ok (i, rest)) (hw : Spec.wireOK bo data) :
    ∃ w, marshal plat bo i = .ok w ∧ data = w ++ rest ∧ (w.length = 8 ∨ w.length = 16) := by
  unfold unmarshal at h
  split at h
  · rename_i b0 b1 b2 b3 b4 b5 b6 b7 rest0
    unfold Spec.wireOK at hw
    obtain ⟨hw1, hw2⟩ := hw
    cases hu : unmarshalClass plat (decodeHeader bo b0 b1 b2 b3 b4 b5 b6 b7) with
    | error e => rw [hu] at h; cases h
    | ok j =>
      rw [hu] at h
      simp only at h
      obtain ⟨k, hk, hkop, hkoff, hinv, hdst, hsrc, hdw⟩ :=
        class_roundtrip plat b0 (decodeHeader bo b0 b1 b2 b3 b4 b5 b6 b7) j (bo.get32 b4 b5 b6 b7) rfl rfl
          (fun ha => hw1 ((aluByte_iff b0).1 ha))
          (fun hb => by
            apply hw2
            unfold Ins.isBuiltinCall at hb
            simp only [Bool.and_eq_true, beq_iff_eq] at hb
            obtain ⟨⟨hb1, hb2⟩, hb3⟩ := hb
            exact ⟨((helper_iff b0).1 hb1).1, ((helper_iff b0).1 hb1).2, split_zero bo b1 hb3 hb2⟩)
          hu
      have hregs : newBPFRegisters bo j.dst j.src = b1 := by
        rw [hdst, hsrc]; exact newRegs_split bo b1
      have hoff : bo.put16 k.off = [b2, b3] := by
        rw [hkoff]; exact put16_get16 bo b2 b3
      by_cases hd : j.op.isDWordLoad = true
      · simp only [hd, Bool.not_true, Bool.false_eq_true, if_false] at h
        split at h
        · rename_i c0 c1 c2 c3 c4 c5 c6 c7 rest'
          split at h
          · cases h
          · rename_i hz
            simp only [ne_eq, Classical.not_not] at hz
            simp only [Except.ok.injEq, Prod.mk.injEq] at h
            obtain ⟨hi, hr⟩ := h
            subst hr
            obtain ⟨hj, hkh⟩ := hdw hd
            have hop18 : b0.setWidth 32 = 0x18#32 := by
              have : j.op = b0.setWidth 32 := by rw [hj]; rfl
              rw [← this]; unfold isDWordLoad at hd; simpa using hd
            have hiop : i.op = 0x18#32 := by rw [← hi, ← hop18, hj]; rfl
            have hidst : i.dst = j.dst := by rw [← hi]
            have hisrc : i.src = j.src := by rw [← hi]
            have hioff : i.off = bo.get16 b2 b3 := by rw [← hi, hj]; rfl
            have hic : i.cons = ((bo.get32 c4 c5 c6 c7).signExtend 64 <<< 32)
                ||| (bo.get32 b4 b5 b6 b7).setWidth 64 := by
              rw [← hi]
              show _ ||| (j.cons.setWidth 32 : BitVec 32).setWidth 64 = _
              have : (j.cons.setWidth 32 : BitVec 32) = bo.get32 b4 b5 b6 b7 := by
                rw [hj]; exact signExtend_setWidth _
              rw [this]
            refine ⟨[b0, b1, b2, b3, b4, b5, b6, b7, c0, c1, c2, c3, c4, c5, c6, c7], ?_, rfl, Or.inr rfl⟩
            have hmc : marshalClass plat i = .ok (i, bo.get32 b4 b5 b6 b7) := by
              have n1 : i.isBuiltinCall = false := by
                unfold Ins.isBuiltinCall; rw [hiop]
                have : (OpCode.jumpOp 0x18#32 == Call) = false := by decide
                rw [this]; rfl
              have n2 : clsIsALU i.op.cls = false := by rw [hiop]; decide
              have n3 : ¬ (i.op.atomicOp ≠ InvalidAtomic) := by rw [hiop]; decide
              unfold marshalClass
              simp only [n1, n2, Bool.false_eq_true, if_false, if_neg n3]
              rw [hic, dword_lo]
            unfold marshal
            rw [if_neg (by rw [hiop]; decide), hmc]
            simp only
            have hbp : bpfOpCode i.op = some b0 := by rw [hiop, ← hop18]; exact bpfOpCode_byte b0
            rw [hbp]
            simp only
            rw [if_pos (by rw [hiop]; decide), hidst, hisrc, hregs, hioff, put16_get16, put32_get32, hic, dword_hi,
              put32_get32, ← hz, put32_get32]
            rfl
        · cases h
      · have hd' : j.op.isDWordLoad = false := by simpa using hd
        simp only [hd', Bool.not_false, if_true, Except.ok.injEq, Prod.mk.injEq] at h
        obtain ⟨hi, hr⟩ := h
        subst hi; subst hr
        refine ⟨[b0, b1, b2, b3, b4, b5, b6, b7], ?_, rfl, Or.inl rfl⟩
        unfold marshal
        rw [if_neg hinv, hk]
        simp only
        rw [hkop, bpfOpCode_byte]
        simp only
        rw [hregs, hoff, put32_get32, if_neg (by rw [hd']; simp)]
        rfl
  · cases h
  · cases h

/-- Non-vacuity of `decode_encode_partial`: a signed division and a 64 bit load. -/
example : Spec.wireOK .little [0x3f#8, 0x21#8, 1#8, 0#8, 0#8, 0#8, 0#8, 0#8]
    ∧ ∃ i, unmarshal .little "linux" [0x3f#8, 0x21#8, 1#8, 0#8, 0#8, 0#8, 0#8, 0#8] = .ok (i, []) ∧ i.op = 0x13f#32 := by
  refine ⟨⟨fun _ => Or.inr (Or.inl ⟨by decide, Or.inl (by decide)⟩), fun h => absurd h.1 (by decide)⟩, ?_⟩
  exact ⟨⟨0x13f#32, 1#8, 2#8, 0#16, 0#64⟩, by decide, rfl⟩

/-- C02 is false in general: the arena instruction `addr_space_cast` (0xbf with offset 1) loses its
offset when it is decoded and encoded again. -/
theorem decode_encode_counterexample : ¬ DecodeEncodeIdentity := by
  intro H
  obtain ⟨w, hw, hd, _⟩ := H .little "linux" [0xbf#8, 0x21#8, 1#8, 0#8, 1#8, 0#8, 0#8, 0#8] []
    ⟨0xbf#32, 1#8, 2#8, 1#16, 1#64⟩ (by decide)
  have : marshal "linux" .little ⟨0xbf#32, 1#8, 2#8, 1#16, 1#64⟩
      = .ok [0xbf#8, 0x21#8, 0#8, 0#8, 1#8, 0#8, 0#8, 0#8] := by decide
  rw [this] at hw
  simp only [Except.ok.injEq] at hw
  subst hw
  exact absurd hd (by decide)

/-- C02 is false in general: a helper call with a negative number is accepted by the decoder but
cannot be encoded. -/
theorem decode_encode_counterexample_call :
    unmarshal .little "linux" [0x85#8, 0#8, 0#8, 0#8, 0xff#8, 0xff#8, 0xff#8, 0xff#8]
      = .ok (⟨0x85#32, 0#8, 0#8, 0#16, BitVec.ofInt 64 (-1)⟩, [])
    ∧ marshal "linux" .little ⟨0x85#32, 0#8, 0#8, 0#16, BitVec.ofInt 64 (-1)⟩ = .error .notSupportedOnOS := by
  decide

end Ebpf.Asm
